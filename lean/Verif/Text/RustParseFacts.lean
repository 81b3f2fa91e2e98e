import Verif.Text.RustParse

/-!
# The parser of Rust reads what is printed
-/

namespace RustParse

open Utils
open Text hiding Tok lex
open RustLex RustAst

/-! ## Trees that can be read back -/

/-- An identifier. -/
def Named (n : Ident) : Prop := n ∉ keywords ∧ n ≠ go!"_"

instance (n : Ident) : Decidable (Named n) := inferInstanceAs (Decidable (_ ∧ _))

/-- A segment of a path. -/
def Seg (n : Ident) : Prop := Named n ∨ n = go!"self" ∨ n = go!"Self"

instance (n : Ident) : Decidable (Seg n) := inferInstanceAs (Decidable (_ ∨ _))

def PathOk (p : List Ident) : Prop := p ≠ [] ∧ ∀ n ∈ p, Seg n

instance (p : List Ident) : Decidable (PathOk p) := inferInstanceAs (Decidable (_ ∧ _))

def TyOk : Ty → Prop
  | .path p => PathOk p
  | .app1 n t => Seg n ∧ TyOk t
  | .app2 n t u => Seg n ∧ TyOk t ∧ TyOk u
  | .ref _ _ t => TyOk t
  | .dyn p => PathOk p

/-- Where an expression stands: before a field, arguments or `?`; after `&` or `*`; before `as`; anywhere; or it is no expression, but
a list of arguments or of fields. -/
inductive Level where
  | post | unary | cast | full | args | fields

def Level.isPost : Level → Prop
  | .args => False
  | .fields => False
  | _ => True

def Level.isUnary : Level → Prop
  | .unary => True
  | .cast => True
  | .full => True
  | _ => False

def Level.isCast : Level → Prop
  | .cast => True
  | .full => True
  | _ => False

/-- Expressions that need no parentheses; `s`: struct expressions may stand there. -/
def ExprOk : Level → Bool → Expr → Prop
  | l, _, .path p => l.isPost ∧ PathOk p
  | l, _, .num _ => l.isPost
  | l, s, .field e n => l.isPost ∧ ExprOk .post s e ∧ Named n
  | l, s, .method e n a => l.isPost ∧ ExprOk .post s e ∧ Named n ∧ ExprOk .args true a
  | l, s, .call f a => l.isPost ∧ ExprOk .post s f ∧ ExprOk .args true a ∧ ∀ e n, f ≠ .field e n
  | l, s, .tr e => l.isPost ∧ ExprOk .post s e
  | l, s, .ref e => l.isUnary ∧ ExprOk .unary s e
  | l, s, .deref e => l.isUnary ∧ ExprOk .unary s e
  | l, s, .as e n => l.isCast ∧ ExprOk .cast s e ∧ Named n
  | l, s, .range a b => l = .full ∧ ExprOk .cast s a ∧ ExprOk .cast s b
  | l, s, .lit n fs => l.isPost ∧ s = true ∧ Seg n ∧ ExprOk .fields true fs
  | l, _, .anil => l = .args
  | l, _, .acons a rest => l = .args ∧ ExprOk .full true a ∧ ExprOk .args true rest
  | l, _, .fnil => l = .fields
  | l, _, .fcons n e rest => l = .fields ∧ Named n ∧ ExprOk .full true e ∧ ExprOk .fields true rest

def SigOk (s : Sig) : Prop := Named s.name ∧ (∀ p ∈ s.params, Named p.1 ∧ TyOk p.2) ∧ TyOk s.ret

/-- `one`: a single statement; otherwise a list. -/
def StmtOk : (one : Bool) → Stmt → Prop
  | one, .skip => one = false
  | one, .seq s rest => one = false ∧ StmtOk true s ∧ StmtOk false rest ∧ ((∃ e, s = .tail e) → rest = .skip)
  | one, .let1 _ n e => one = true ∧ Named n ∧ ExprOk .full true e
  | one, .expr e => one = true ∧ ExprOk .full true e
  | one, .tail e => one = true ∧ ExprOk .full true e
  | one, .ret e => one = true ∧ ExprOk .full true e
  | one, .if1 c t => one = true ∧ ExprOk .full false c ∧ StmtOk false t
  | one, .ifLet c x e t => one = true ∧ Named c ∧ Named x ∧ ExprOk .full false e ∧ StmtOk false t
  | one, .for1 x e b => one = true ∧ (Named x ∨ x = go!"_") ∧ ExprOk .full false e ∧ StmtOk false b
  | one, .for2 x y e b => one = true ∧ Named x ∧ Named y ∧ ExprOk .full false e ∧ StmtOk false b
  | one, .func sig body => one = true ∧ SigOk sig ∧ StmtOk false body

def ItemOk : Item → Prop
  | .use1 p => PathOk p
  | .use2 p is => PathOk p ∧ is ≠ [] ∧ ∀ i ∈ is, Named i
  | .enum as n vs => (∀ a ∈ as, Named a.1 ∧ a.2 ≠ [] ∧ ∀ i ∈ a.2, Named i) ∧ Named n ∧ ∀ v ∈ vs, Named v.1
  | .struct n fs => Named n ∧ ∀ f ∈ fs, Named f.2.1 ∧ TyOk f.2.2
  | .trait n sig => Named n ∧ SigOk sig
  | .impl t n sig body => Named t ∧ Named n ∧ SigOk sig ∧ StmtOk false body

/-! ## Classified tokens -/

theorem classify_ident {n : Ident} (h : Named n) : classify (.word n) = .ident n := by
  unfold Named at h
  simp [classify, h.1, h.2]

def ptoks (ts : List Tok) : List PTok := ts.map classify

@[simp] theorem ptoks_nil : ptoks [] = [] := rfl
@[simp] theorem ptoks_cons (t : Tok) (ts : List Tok) : ptoks (t :: ts) = classify t :: ptoks ts := rfl
@[simp] theorem ptoks_append (a b : List Tok) : ptoks (a ++ b) = ptoks a ++ ptoks b := List.map_append
@[simp] theorem ptoks_length (a : List Tok) : (ptoks a).length = a.length := List.length_map _

@[simp] theorem c_dot : classify (.op go!".") = .dot := by decide +kernel
@[simp] theorem c_comma : classify (.op go!",") = .comma := by decide +kernel
@[simp] theorem c_semi : classify (.op go!";") = .semi := by decide +kernel
@[simp] theorem c_lparen : classify (.op go!"(") = .lparen := by decide +kernel
@[simp] theorem c_rparen : classify (.op go!")") = .rparen := by decide +kernel
@[simp] theorem c_lbrack : classify (.op go!"[") = .lbrack := by decide +kernel
@[simp] theorem c_rbrack : classify (.op go!"]") = .rbrack := by decide +kernel
@[simp] theorem c_lbrace : classify (.op go!"{") = .lbrace := by decide +kernel
@[simp] theorem c_rbrace : classify (.op go!"}") = .rbrace := by decide +kernel
@[simp] theorem c_star : classify (.op go!"*") = .star := by decide +kernel
@[simp] theorem c_amp : classify (.op go!"&") = .amp := by decide +kernel
@[simp] theorem c_question : classify (.op go!"?") = .question := by decide +kernel
@[simp] theorem c_hash : classify (.op go!"#") = .hash := by decide +kernel
@[simp] theorem c_assign : classify (.op go!"=") = .assign := by decide +kernel
@[simp] theorem c_lt : classify (.op go!"<") = .lt := by decide +kernel
@[simp] theorem c_gt : classify (.op go!">") = .gt := by decide +kernel
@[simp] theorem c_colon : classify (.op go!":") = .colon := by decide +kernel
@[simp] theorem c_colons : classify (.op go!"::") = .colons := by decide +kernel
@[simp] theorem c_arrow : classify (.op go!"->") = .arrow := by decide +kernel
@[simp] theorem c_dots : classify (.op go!"..") = .dots := by decide +kernel
@[simp] theorem c_as : classify (.word go!"as") = .kas := by decide +kernel
@[simp] theorem c_crate : classify (.word go!"crate") = .kcrate := by decide +kernel
@[simp] theorem c_dyn : classify (.word go!"dyn") = .kdyn := by decide +kernel
@[simp] theorem c_enum : classify (.word go!"enum") = .kenum := by decide +kernel
@[simp] theorem c_fn : classify (.word go!"fn") = .kfn := by decide +kernel
@[simp] theorem c_for : classify (.word go!"for") = .kfor := by decide +kernel
@[simp] theorem c_if : classify (.word go!"if") = .kif := by decide +kernel
@[simp] theorem c_impl : classify (.word go!"impl") = .kimpl := by decide +kernel
@[simp] theorem c_in : classify (.word go!"in") = .kin := by decide +kernel
@[simp] theorem c_let : classify (.word go!"let") = .klet := by decide +kernel
@[simp] theorem c_mut : classify (.word go!"mut") = .kmut := by decide +kernel
@[simp] theorem c_pub : classify (.word go!"pub") = .kpub := by decide +kernel
@[simp] theorem c_return : classify (.word go!"return") = .kreturn := by decide +kernel
@[simp] theorem c_self : classify (.word go!"self") = .kself := by decide +kernel
@[simp] theorem c_Self : classify (.word go!"Self") = .kSelf := by decide +kernel
@[simp] theorem c_struct : classify (.word go!"struct") = .kstruct := by decide +kernel
@[simp] theorem c_trait : classify (.word go!"trait") = .ktrait := by decide +kernel
@[simp] theorem c_use : classify (.word go!"use") = .kuse := by decide +kernel
@[simp] theorem c_where : classify (.word go!"where") = .kwhere := by decide +kernel
@[simp] theorem c_underscore : classify (.word go!"_") = .underscore := by decide +kernel
@[simp] theorem c_num (s : Frag) : classify (.num s) = .num s := rfl
@[simp] theorem c_life (s : Frag) : classify (.life s) = .life s := rfl
theorem c_Sized : classify (.word go!"Sized") = .ident go!"Sized" := by decide +kernel

/-! ## Paths -/

/-- What a segment looks like. -/
def SegTok : PTok → Prop
  | .ident _ => True
  | .kself => True
  | .kSelf => True
  | _ => False

theorem classify_seg {n : Ident} (h : Seg n) : segment (classify (.word n)) = some n ∧ SegTok (classify (.word n)) := by
  rcases h with h | rfl | rfl
  · rw [classify_ident h]; exact ⟨rfl, trivial⟩
  · rw [c_self]; exact ⟨rfl, trivial⟩
  · rw [c_Self]; exact ⟨rfl, trivial⟩

/-- A path ends before these tokens. -/
def Ends (rest : List PTok) : Prop := segments rest = ([], rest)

theorem segments_read (p : List Ident) (h : ∀ n ∈ p, Seg n) (rest : List PTok) (hr : Ends rest) :
    segments (ptoks (p.flatMap fun n => [.op go!"::", .word n]) ++ rest) = (p, rest) := by
  induction p with
  | nil => exact hr
  | cons n p ih =>
    simp only [List.flatMap_cons, ptoks_append, ptoks_cons, ptoks_nil, c_colons, List.cons_append, List.nil_append, List.append_assoc]
    rw [segments]
    simp only [(classify_seg (h n (List.mem_cons_self ..))).1, ih fun m hm => h m (List.mem_cons_of_mem _ hm)]

theorem pathToks_cons (n : Ident) (p : List Ident) : pathToks (n :: p) = .word n :: p.flatMap fun n => [.op go!"::", .word n] := by
  induction p generalizing n with
  | nil => rfl
  | cons m p ih =>
    rw [pathToks, ih]
    · rfl
    · simp

theorem path_reads {p : List Ident} (h : PathOk p) {rest : List PTok} (hr : Ends rest) : path (ptoks (pathToks p) ++ rest) = some (p, rest) := by
  cases p with
  | nil => exact absurd rfl h.1
  | cons n p =>
    rw [pathToks_cons, ptoks_cons, List.cons_append, path, (classify_seg (h.2 n (List.mem_cons_self ..))).1,
      segments_read p (fun m hm => h.2 m (List.mem_cons_of_mem _ hm)) rest hr]
    rfl

theorem path_starts {p : List Ident} (h : PathOk p) : ∃ t ts, ptoks (pathToks p) = t :: ts ∧ SegTok t := by
  cases p with
  | nil => exact absurd rfl h.1
  | cons n p =>
    rw [pathToks_cons]
    exact ⟨_, _, rfl, (classify_seg (h.2 n (List.mem_cons_self ..))).2⟩

theorem idents_read (is : List Ident) (hi : is ≠ []) (h : ∀ i ∈ is, Named i) (rest : List PTok) (hr : ∀ r, rest ≠ .comma :: r) :
    idents (ptoks (commaToks is) ++ rest) = some (is, rest) := by
  induction is with
  | nil => exact absurd rfl hi
  | cons i is ih =>
    have h1 := h i (List.mem_cons_self ..)
    cases is with
    | nil =>
      simp only [commaToks, ptoks_cons, ptoks_nil, classify_ident h1, List.cons_append, List.nil_append]
      rw [idents]
      intro r hr2
      exact hr r hr2
    | cons j js =>
      simp only [commaToks, ptoks_cons, classify_ident h1, c_comma, List.cons_append]
      rw [idents, ih (by simp) fun m hm => h m (List.mem_cons_of_mem _ hm)]
      rfl

/-! ## Types -/

/-- What can follow a type. -/
def StopTy (rest : List PTok) : Prop := Ends rest ∧ ∀ r, rest ≠ .lt :: r

/-- What a type can begin with. -/
def StartsTy : PTok → Prop
  | .amp => True
  | .kdyn => True
  | t => SegTok t

theorem type_starts {t : Ty} (h : TyOk t) : ∃ x xs, ptoks t.toks = x :: xs ∧ StartsTy x := by
  have seg : ∀ x, SegTok x → StartsTy x := by intro x hx; cases x <;> first | trivial | exact hx
  cases t with
  | path p => obtain ⟨x, xs, h1, h2⟩ := path_starts h; exact ⟨x, xs, h1, seg x h2⟩
  | app1 n t => exact ⟨_, _, by simp only [Ty.toks, ptoks_cons, List.cons_append]; rfl, seg _ (classify_seg h.1).2⟩
  | app2 n t u => exact ⟨_, _, by simp only [Ty.toks, ptoks_cons, List.cons_append]; rfl, seg _ (classify_seg h.1).2⟩
  | ref l m t => exact ⟨_, _, by simp only [Ty.toks, ptoks_cons, List.cons_append]; rfl, by rw [c_amp]; trivial⟩
  | dyn p => exact ⟨_, _, by simp only [Ty.toks, ptoks_cons, List.cons_append]; rfl, by rw [c_dyn]; trivial⟩

theorem type_seg (n : Nat) (t : PTok) (ts : List PTok) (h : SegTok t) : type (n + 1) (t :: ts) =
      match path (t :: ts) with
      | some ([s], .lt :: ts) =>
        match type n ts with
        | some (t, .gt :: ts) => some (.app1 s t, ts)
        | some (t, .comma :: ts) =>
          match type n ts with
          | some (u, .gt :: ts) => some (.app2 s t u, ts)
          | _ => none
        | _ => none
      | some (p, ts) => some (.path p, ts)
      | none => none := by
  cases t <;> first | rfl | exact h.elim

theorem lifetime_reads (l : Option Ident) (ts : List PTok) (h : ∀ x r, ts ≠ .life x :: r) : lifetime (ptoks (lifeToks l) ++ ts) = (l, ts) := by
  cases l with
  | some l => rfl
  | none =>
    simp only [lifeToks, ptoks_nil, List.nil_append]
    rw [lifetime]
    intro x r hx; exact h x r hx

theorem mutable_reads (m : Bool) (ts : List PTok) (h : ∀ r, ts ≠ .kmut :: r) : mutable (ptoks (if m then [.word go!"mut"] else []) ++ ts) = (m, ts) := by
  cases m with
  | true => simp only [if_true, ptoks_cons, ptoks_nil, c_mut, List.cons_append, List.nil_append, mutable]
  | false =>
    simp only [Bool.false_eq_true, if_false, ptoks_nil, List.nil_append]
    rw [mutable]
    intro r hx; exact h r hx

theorem ends_of {t : PTok} (ts : List PTok) (h : t ≠ .colons) : Ends (t :: ts) := by
  unfold Ends
  rw [segments]
  intro x r hx
  cases hx
  exact h rfl

theorem stopTy_of {t : PTok} (ts : List PTok) (h : t ≠ .colons ∧ t ≠ .lt) : StopTy (t :: ts) :=
  ⟨ends_of ts h.1, by intro r hr; cases hr; exact h.2 rfl⟩

theorem path1 (n : Ident) (h : Seg n) (rest : List PTok) (hr : Ends rest) : path (classify (.word n) :: rest) = some ([n], rest) :=
  path_reads (p := [n]) ⟨by simp, by simpa using h⟩ hr

theorem type_reads (t : Ty) : TyOk t → ∀ (rest : List PTok), StopTy rest → ∀ n, t.toks.length ≤ n →
    type n (ptoks t.toks ++ rest) = some (t, rest) := by
  induction t with
  | path p =>
    intro h rest hr n hn
    obtain ⟨x, xs, h1, h2⟩ := path_starts h
    have hl : 1 ≤ n := by
      have := congrArg List.length h1
      simp only [ptoks_length, List.length_cons] at this
      simp only [Ty.toks] at hn
      omega
    obtain ⟨n, rfl⟩ : ∃ m, n = m + 1 := ⟨n - 1, by omega⟩
    have hp := path_reads h hr.1
    simp only [Ty.toks]
    rw [h1, List.cons_append] at hp ⊢
    rw [type_seg _ _ _ h2, hp]
    split
    · rename_i h3; cases h3; exact absurd rfl (hr.2 _)
    · rename_i h3; cases h3; rfl
    · rename_i h3; cases h3
  | app1 x t ih =>
    intro h rest hr n hn
    simp only [Ty.toks, List.length_cons, List.length_append, List.length_nil] at hn
    obtain ⟨n, rfl⟩ : ∃ m, n = m + 1 := ⟨n - 1, by omega⟩
    simp only [Ty.toks, ptoks_cons, ptoks_append, ptoks_nil, c_lt, c_gt, List.cons_append, List.nil_append, List.append_assoc]
    rw [type_seg _ _ _ (classify_seg h.1).2, path1 x h.1 _ (ends_of _ (by simp))]
    simp only [ih h.2 (.gt :: rest) (stopTy_of _ (by simp)) n (by omega)]
  | app2 x t u iht ihu =>
    intro h rest hr n hn
    simp only [Ty.toks, List.length_cons, List.length_append, List.length_nil] at hn
    obtain ⟨n, rfl⟩ : ∃ m, n = m + 1 := ⟨n - 1, by omega⟩
    simp only [Ty.toks, ptoks_cons, ptoks_append, ptoks_nil, c_lt, c_gt, c_comma, List.cons_append, List.nil_append, List.append_assoc]
    rw [type_seg _ _ _ (classify_seg h.1).2, path1 x h.1 _ (ends_of _ (by simp))]
    simp only [iht h.2.1 (.comma :: (ptoks u.toks ++ .gt :: rest)) (stopTy_of _ (by simp)) n (by omega),
      ihu h.2.2 (.gt :: rest) (stopTy_of _ (by simp)) n (by omega)]
  | ref l m t ih =>
    intro h rest hr n hn
    simp only [Ty.toks, List.length_cons, List.length_append, List.length_nil] at hn
    obtain ⟨n, rfl⟩ : ∃ m, n = m + 1 := ⟨n - 1, by omega⟩
    have ht := ih h rest hr n (by omega)
    obtain ⟨x, xs, h1, h2⟩ := type_starts (t := t) h
    have hm : mutable (ptoks (if m then [.word go!"mut"] else []) ++ (ptoks t.toks ++ rest)) = (m, ptoks t.toks ++ rest) := by
      apply mutable_reads
      intro r hr; rw [h1] at hr; cases hr; exact h2
    have hl : lifetime (ptoks (lifeToks l) ++ (ptoks (if m then [.word go!"mut"] else []) ++ (ptoks t.toks ++ rest))) =
        (l, ptoks (if m then [.word go!"mut"] else []) ++ (ptoks t.toks ++ rest)) := by
      apply lifetime_reads
      intro y r hr
      cases m with
      | true => simp only [if_true, ptoks_cons, c_mut, List.cons_append] at hr; cases hr
      | false =>
        simp only [Bool.false_eq_true, if_false, ptoks_nil, List.nil_append] at hr
        rw [h1] at hr; cases hr; exact h2
    simp only [Ty.toks, ptoks_cons, ptoks_append, c_amp, List.cons_append, List.append_assoc]
    unfold type
    simp only [hl, hm, ht]
  | dyn p =>
    intro h rest hr n hn
    simp only [Ty.toks, List.length_cons] at hn
    obtain ⟨n, rfl⟩ : ∃ m, n = m + 1 := ⟨n - 1, by omega⟩
    simp only [Ty.toks, ptoks_cons, c_dyn, List.cons_append]
    unfold type
    simp only [path_reads h hr.1, Option.map_some]

/-! ## Expressions -/

/-- What an expression can begin with. -/
def Starts : PTok → Prop
  | .num _ => True
  | .amp => True
  | .star => True
  | t => SegTok t

theorem SegTok.starts {t : PTok} (h : SegTok t) : Starts t := by cases t <;> first | trivial | exact h

theorem starts_append {a b : List PTok} (h : ∃ t ts, a = t :: ts ∧ Starts t) : ∃ t ts, a ++ b = t :: ts ∧ Starts t := by
  obtain ⟨t, ts, rfl, h⟩ := h
  exact ⟨t, ts ++ b, rfl, h⟩

theorem expr_starts (e : Expr) : ∀ (l : Level) (s : Bool), l.isPost → ExprOk l s e → ∃ t ts, ptoks e.toks = t :: ts ∧ Starts t := by
  induction e with
  | path p =>
    intro l s _ h
    obtain ⟨t, ts, h1, h2⟩ := path_starts h.2
    exact ⟨t, ts, h1, h2.starts⟩
  | num x => intro l s _ _; exact ⟨.num x, [], rfl, trivial⟩
  | field e n ih => intro l s _ h; simp only [Expr.toks, ptoks_append]; exact starts_append (ih .post s trivial h.2.1)
  | method e n a ih => intro l s _ h; simp only [Expr.toks, ptoks_append, List.append_assoc]; exact starts_append (ih .post s trivial h.2.1)
  | call e a ih => intro l s _ h; simp only [Expr.toks, ptoks_append, List.append_assoc]; exact starts_append (ih .post s trivial h.2.1)
  | tr e ih => intro l s _ h; simp only [Expr.toks, ptoks_append]; exact starts_append (ih .post s trivial h.2)
  | ref e => intro l s _ _; exact ⟨.amp, ptoks e.toks, by simp only [Expr.toks, ptoks_cons, c_amp], trivial⟩
  | deref e => intro l s _ _; exact ⟨.star, ptoks e.toks, by simp only [Expr.toks, ptoks_cons, c_star], trivial⟩
  | as e n ih => intro l s _ h; simp only [Expr.toks, ptoks_append]; exact starts_append (ih .cast s trivial h.2.1)
  | range a b ih => intro l s _ h; simp only [Expr.toks, ptoks_append]; exact starts_append (ih .cast s trivial h.2.1)
  | lit n fs => intro l s _ h; exact ⟨_, _, by simp only [Expr.toks, ptoks_cons, List.cons_append]; rfl, (classify_seg h.2.2.1).2.starts⟩
  | anil => intro l s hl h; rw [ExprOk] at h; subst h; exact hl.elim
  | acons a r => intro l s hl h; obtain ⟨rfl, _⟩ := h; exact hl.elim
  | fnil => intro l s hl h; rw [ExprOk] at h; subst h; exact hl.elim
  | fcons n e r => intro l s hl h; obtain ⟨rfl, _⟩ := h; exact hl.elim

/-- What can follow an operand that is not finished. -/
def Cont (s : Bool) (rest : List PTok) : Prop := Ends rest ∧ (s = true → ∀ r, rest ≠ .lbrace :: r)

/-- What can follow a finished operand. -/
def StopPost (s : Bool) (rest : List PTok) : Prop := Cont s rest ∧ (∀ r, rest ≠ .dot :: r) ∧ (∀ r, rest ≠ .lparen :: r) ∧ ∀ r, rest ≠ .question :: r

/-- What can follow an expression. -/
def Stop (s : Bool) (rest : List PTok) : Prop := StopPost s rest ∧ (∀ r, rest ≠ .kas :: r) ∧ ∀ r, rest ≠ .dots :: r

theorem cont_of {s : Bool} {t : PTok} (ts : List PTok) (h : t ≠ .colons ∧ (s = true → t ≠ .lbrace)) : Cont s (t :: ts) :=
  ⟨ends_of ts h.1, by intro hs r hr; cases hr; exact h.2 hs rfl⟩

theorem stopPost_of {s : Bool} {t : PTok} (ts : List PTok) (h : t ≠ .colons ∧ (s = true → t ≠ .lbrace)) (h2 : t ≠ .dot ∧ t ≠ .lparen ∧ t ≠ .question) :
    StopPost s (t :: ts) :=
  ⟨cont_of ts h, by intro r hr; cases hr; exact h2.1 rfl, by intro r hr; cases hr; exact h2.2.1 rfl, by intro r hr; cases hr; exact h2.2.2 rfl⟩

/-- Tokens after which an expression ends. -/
def StopTok : PTok → Prop
  | .comma => True
  | .semi => True
  | .rparen => True
  | .rbrace => True
  | _ => False

theorem stop_of {t : PTok} (ts : List PTok) (h : StopTok t) : Stop true (t :: ts) := by
  refine ⟨stopPost_of ts ?_ ?_, ?_, ?_⟩ <;> cases t <;> first | exact h.elim | simp

theorem stop_block (ts : List PTok) : Stop false (.lbrace :: ts) := ⟨stopPost_of ts (by simp) (by simp), by simp, by simp⟩

theorem post_stop (n : Nat) (e : Expr) {s : Bool} (ts : List PTok) (h : StopPost s ts) : post (n + 1) e ts = some (e, ts) := by
  unfold post
  obtain ⟨_, h1, h2, h3⟩ := h
  split <;> simp_all

theorem casts_stop (e : Expr) (ts : List PTok) (h : ∀ r, ts ≠ .kas :: r) : casts e ts = (e, ts) := by
  rw [casts]
  intro n r hr; exact h _ hr

theorem unary_seg (n : Nat) (s : Bool) (t : PTok) (ts : List PTok) (h : SegTok t) : unary (n + 1) s (t :: ts) =
      match path (t :: ts) with
      | some (p, us) =>
        match s, p, us with
        | true, [x], .lbrace :: us =>
          match fields n us with
          | some (fs, us) => post n (.lit x fs) us
          | none => none
        | _, p, us => post n (.path p) us
      | none => none := by
  cases t <;> first | rfl | exact h.elim

theorem args_expr (n : Nat) (t : PTok) (ts : List PTok) (h : Starts t) : args (n + 1) (t :: ts) =
      match expr n true (t :: ts) with
      | some (a, .comma :: ts) =>
        match args n ts with
        | some (as, ts) => some (.acons a as, ts)
        | none => none
      | some (a, .rparen :: ts) => some (.acons a .anil, ts)
      | _ => none := by
  cases t <;> first | rfl | exact h.elim

/-- After an operand the rest is read on. -/
def ReadsPost (s : Bool) (e : Expr) : Prop := ∀ N r rest, Cont s rest → ((∀ r, rest ≠ .lparen :: r) ∨ ∀ a n, e ≠ .field a n) →
  (∀ n, N ≤ n → post n e rest = some r) → ∀ n, N + 6 * e.toks.length ≤ n →
  unary n s (ptoks e.toks ++ rest) = some r

def ReadsUnary (s : Bool) (e : Expr) : Prop := ∀ rest, StopPost s rest → ∀ n, 6 * e.toks.length + 1 ≤ n → unary n s (ptoks e.toks ++ rest) = some (e, rest)

def ReadsCast (s : Bool) (e : Expr) : Prop := ∀ rest, StopPost s rest → ∀ n, 6 * e.toks.length + 1 ≤ n → ∃ e' rest',
  unary n s (ptoks e.toks ++ rest) = some (e', rest') ∧ casts e' rest' = casts e rest

def ReadsFull (s : Bool) (e : Expr) : Prop := ∀ rest, Stop s rest → ∀ n, 6 * e.toks.length + 2 ≤ n → expr n s (ptoks e.toks ++ rest) = some (e, rest)

def ReadsArgs (e : Expr) : Prop := ∀ rest n, 6 * e.toks.length + 3 ≤ n → args n (ptoks e.toks ++ .rparen :: rest) = some (e, rest)

def ReadsFields (e : Expr) : Prop := ∀ rest n, 6 * e.toks.length + 3 ≤ n → fields n (ptoks e.toks ++ .rbrace :: rest) = some (e, rest)

theorem ReadsPost.unary {s : Bool} {e : Expr} (h : ReadsPost s e) : ReadsUnary s e := by
  intro rest hr n hn
  refine h 1 _ rest hr.1 (.inl hr.2.2.1) ?_ n (by omega)
  intro n hn
  obtain ⟨n, rfl⟩ : ∃ m, n = m + 1 := ⟨n - 1, by omega⟩
  exact post_stop n e rest hr

theorem ReadsUnary.cast {s : Bool} {e : Expr} (h : ReadsUnary s e) : ReadsCast s e := fun rest hr n hn => ⟨e, rest, h rest hr n hn, rfl⟩

theorem ReadsCast.full {s : Bool} {e : Expr} (h : ReadsCast s e) : ReadsFull s e := by
  intro rest hr n hn
  obtain ⟨n, rfl⟩ : ∃ m, n = m + 1 := ⟨n - 1, by omega⟩
  obtain ⟨e', rest', h1, h2⟩ := h rest hr.1 n (by omega)
  rw [casts_stop e rest hr.2.1] at h2
  rw [expr, h1]
  simp only [h2]
  split
  · rename_i h3; cases h3; exact absurd rfl (hr.2.2 _)
  · rename_i h3; cases h3; rfl

/-- What is proved of an expression. -/
structure ReadsAll (e : Expr) : Prop where
  post : ∀ s, ExprOk .post s e → ReadsPost s e
  unary : ∀ s, ExprOk .unary s e → ReadsUnary s e
  cast : ∀ s, ExprOk .cast s e → ReadsCast s e
  full : ∀ s, ExprOk .full s e → ReadsFull s e
  args : ∀ s, ExprOk .args s e → ReadsArgs e
  fields : ∀ s, ExprOk .fields s e → ReadsFields e

theorem ReadsAll.of_post {e : Expr} (h : ∀ s, ExprOk .post s e → ReadsPost s e) (hd : ∀ l s, ExprOk l s e → l.isPost ∧ ExprOk .post s e) : ReadsAll e where
  post := h
  unary s hs := (h s (hd _ s hs).2).unary
  cast s hs := (h s (hd _ s hs).2).unary.cast
  full s hs := (h s (hd _ s hs).2).unary.cast.full
  args s hs := (hd _ s hs).1.elim
  fields s hs := (hd _ s hs).1.elim

theorem ReadsAll.of_unary {e : Expr} (h : ∀ s, ExprOk .unary s e → ReadsUnary s e) (hd : ∀ l s, ExprOk l s e → l.isUnary ∧ ExprOk .unary s e) : ReadsAll e where
  post s hs := (hd _ s hs).1.elim
  unary := h
  cast s hs := (h s (hd _ s hs).2).cast
  full s hs := (h s (hd _ s hs).2).cast.full
  args s hs := (hd _ s hs).1.elim
  fields s hs := (hd _ s hs).1.elim

theorem expr_reads (e : Expr) : ReadsAll e := by
  induction e with
  | path p =>
    refine .of_post ?_ (fun l s h => ⟨h.1, trivial, h.2⟩)
    intro s h N r rest hc hf hp n hn
    obtain ⟨t, ts, h1, h2⟩ := path_starts h.2
    have hl := congrArg List.length h1
    simp only [ptoks_length, List.length_cons] at hl
    simp only [Expr.toks] at hn ⊢
    obtain ⟨n, rfl⟩ : ∃ m, n = m + 1 := ⟨n - 1, by omega⟩
    have hpath := path_reads h.2 hc.1
    rw [h1, List.cons_append] at hpath ⊢
    rw [unary_seg _ _ _ _ h2, hpath]
    simp only
    split
    · exact absurd rfl (hc.2 rfl _)
    · exact hp n (by omega)
  | num x =>
    refine .of_post ?_ (fun l s h => ⟨h, trivial⟩)
    intro s h N r rest hc hf hp n hn
    simp only [Expr.toks, List.length_cons, List.length_nil] at hn
    obtain ⟨n, rfl⟩ : ∃ m, n = m + 1 := ⟨n - 1, by omega⟩
    simp only [Expr.toks, ptoks_cons, ptoks_nil, c_num, List.cons_append, List.nil_append]
    rw [unary]
    exact hp n (by omega)
  | field e x ih =>
    refine .of_post ?_ (fun l s h => ⟨h.1, trivial, h.2⟩)
    intro s h N r rest hc hf hp n hn
    simp only [Expr.toks, List.length_append, List.length_cons, List.length_nil] at hn
    simp only [Expr.toks, ptoks_append, ptoks_cons, ptoks_nil, c_dot, classify_ident h.2.2, List.append_assoc, List.cons_append, List.nil_append]
    refine ih.post s h.2.1 (N + 1) r _ (cont_of _ (by simp)) (.inl (by simp)) ?_ n (by omega)
    intro n hn
    obtain ⟨n, rfl⟩ : ∃ m, n = m + 1 := ⟨n - 1, by omega⟩
    have hl : ∀ r, rest ≠ .lparen :: r := by
      rcases hf with hf | hf
      · exact hf
      · exact absurd rfl (hf e x)
    rw [post]
    · exact hp n (by omega)
    · intro r hr; exact hl r hr
  | method e x a ih iha =>
    refine .of_post ?_ (fun l s h => ⟨h.1, trivial, h.2⟩)
    intro s h N r rest hc hf hp n hn
    simp only [Expr.toks, List.length_append, List.length_cons, List.length_nil] at hn
    simp only [Expr.toks, ptoks_append, ptoks_cons, ptoks_nil, c_dot, c_lparen, c_rparen, classify_ident h.2.2.1, List.append_assoc, List.cons_append, List.nil_append]
    refine ih.post s h.2.1 (N + 6 * a.toks.length + 4) r _ (cont_of _ (by simp)) (.inl (by simp)) ?_ n (by omega)
    intro n hn
    obtain ⟨n, rfl⟩ : ∃ m, n = m + 1 := ⟨n - 1, by omega⟩
    rw [post, iha.args true h.2.2.2 rest n (by omega)]
    exact hp n (by omega)
  | call e a ih iha =>
    refine .of_post ?_ (fun l s h => ⟨h.1, trivial, h.2⟩)
    intro s h N r rest hc hf hp n hn
    simp only [Expr.toks, List.length_append, List.length_cons, List.length_nil] at hn
    simp only [Expr.toks, ptoks_append, ptoks_cons, ptoks_nil, c_lparen, c_rparen, List.append_assoc, List.cons_append, List.nil_append]
    refine ih.post s h.2.1 (N + 6 * a.toks.length + 4) r _ (cont_of _ (by simp)) (.inr h.2.2.2) ?_ n (by omega)
    intro n hn
    obtain ⟨n, rfl⟩ : ∃ m, n = m + 1 := ⟨n - 1, by omega⟩
    rw [post, iha.args true h.2.2.1 rest n (by omega)]
    exact hp n (by omega)
  | tr e ih =>
    refine .of_post ?_ (fun l s h => ⟨h.1, trivial, h.2⟩)
    intro s h N r rest hc hf hp n hn
    simp only [Expr.toks, List.length_append, List.length_cons, List.length_nil] at hn
    simp only [Expr.toks, ptoks_append, ptoks_cons, ptoks_nil, c_question, List.append_assoc, List.cons_append, List.nil_append]
    refine ih.post s h.2 (N + 1) r _ (cont_of _ (by simp)) (.inl (by simp)) ?_ n (by omega)
    intro n hn
    obtain ⟨n, rfl⟩ : ∃ m, n = m + 1 := ⟨n - 1, by omega⟩
    rw [post]
    exact hp n (by omega)
  | ref e ih =>
    refine .of_unary ?_ (fun l s h => ⟨h.1, trivial, h.2⟩)
    intro s h rest hr n hn
    simp only [Expr.toks, List.length_cons] at hn
    obtain ⟨n, rfl⟩ : ∃ m, n = m + 1 := ⟨n - 1, by omega⟩
    simp only [Expr.toks, ptoks_cons, c_amp, List.cons_append]
    rw [RustParse.unary, ih.unary s h.2 rest hr n (by omega)]
  | deref e ih =>
    refine .of_unary ?_ (fun l s h => ⟨h.1, trivial, h.2⟩)
    intro s h rest hr n hn
    simp only [Expr.toks, List.length_cons] at hn
    obtain ⟨n, rfl⟩ : ∃ m, n = m + 1 := ⟨n - 1, by omega⟩
    simp only [Expr.toks, ptoks_cons, c_star, List.cons_append]
    rw [RustParse.unary, ih.unary s h.2 rest hr n (by omega)]
  | as e x ih =>
    have key : ∀ l s, ExprOk l s (.as e x) → ReadsCast s (.as e x) := by
      intro l s h rest hr n hn
      simp only [Expr.toks, List.length_append, List.length_cons, List.length_nil] at hn
      simp only [Expr.toks, ptoks_append, ptoks_cons, ptoks_nil, c_as, classify_ident h.2.2, List.append_assoc, List.cons_append, List.nil_append]
      obtain ⟨e', rest', h1, h2⟩ := ih.cast s h.2.1 (.kas :: .ident x :: rest) (stopPost_of _ (by simp) (by simp)) n (by omega)
      exact ⟨e', rest', h1, by rw [h2, casts]⟩
    exact ⟨fun s h => h.1.elim, fun s h => h.1.elim, fun s h => key _ s h, fun s h => (key _ s h).full, fun s h => h.1.elim, fun s h => h.1.elim⟩
  | range a b iha ihb =>
    refine ⟨fun s h => absurd h (by simp [ExprOk]), fun s h => absurd h (by simp [ExprOk]), fun s h => absurd h (by simp [ExprOk]), ?_, fun s h => absurd h (by simp [ExprOk]), fun s h => absurd h (by simp [ExprOk])⟩
    intro s h rest hr n hn
    simp only [Expr.toks, List.length_append, List.length_cons] at hn
    obtain ⟨n, rfl⟩ : ∃ m, n = m + 1 := ⟨n - 1, by omega⟩
    simp only [Expr.toks, ptoks_append, ptoks_cons, c_dots, List.append_assoc, List.cons_append]
    obtain ⟨e1, r1, h1, h2⟩ := iha.cast s h.2.1 (.dots :: (ptoks b.toks ++ rest)) (stopPost_of _ (by simp) (by simp)) n (by omega)
    obtain ⟨e2, r2, h3, h4⟩ := ihb.cast s h.2.2 rest hr.1 n (by omega)
    have h2 := h2.trans (casts_stop _ _ (by simp))
    have h4 := h4.trans (casts_stop _ _ hr.2.1)
    rw [expr, h1]
    simp only [h2, h3, h4]
  | lit x fs ih =>
    refine .of_post ?_ (fun l s h => ⟨h.1, trivial, h.2⟩)
    intro s h N r rest hc hf hp n hn
    simp only [Expr.toks, List.length_append, List.length_cons, List.length_nil] at hn
    obtain ⟨n, rfl⟩ : ∃ m, n = m + 1 := ⟨n - 1, by omega⟩
    obtain ⟨-, rfl, h1, h2⟩ := h
    simp only [Expr.toks, ptoks_append, ptoks_cons, ptoks_nil, c_lbrace, c_rbrace, List.append_assoc, List.cons_append, List.nil_append]
    rw [unary_seg _ _ _ _ (classify_seg h1).2, path1 x h1 _ (ends_of _ (by simp))]
    simp only [ih.fields true h2 rest n (by omega)]
    exact hp n (by omega)
  | anil =>
    refine ⟨fun s h => absurd h (by simp [ExprOk]), fun s h => absurd h (by simp [ExprOk]), fun s h => absurd h (by simp [ExprOk]), fun s h => absurd h (by simp [ExprOk]), ?_, fun s h => absurd h (by simp [ExprOk])⟩
    intro s h rest n hn
    obtain ⟨n, rfl⟩ : ∃ m, n = m + 1 := ⟨n - 1, by omega⟩
    rfl
  | acons a as iha ihs =>
    refine ⟨fun s h => absurd h (by simp [ExprOk]), fun s h => absurd h (by simp [ExprOk]), fun s h => absurd h (by simp [ExprOk]), fun s h => absurd h (by simp [ExprOk]), ?_, fun s h => absurd h (by simp [ExprOk])⟩
    intro s h rest n hn
    obtain ⟨n, rfl⟩ : ∃ m, n = m + 1 := ⟨n - 1, by omega⟩
    obtain ⟨t, ts, h1, h2⟩ := expr_starts a .full true trivial h.2.1
    by_cases hs : as = .anil
    · subst hs
      simp only [Expr.toks] at hn ⊢
      have := iha.full true h.2.1 (.rparen :: rest) (stop_of _ trivial) n (by omega)
      rw [h1, List.cons_append] at this ⊢
      rw [args_expr _ _ _ h2, this]
    · have he : (Expr.acons a as).toks = a.toks ++ .op go!"," :: as.toks := by
        rw [Expr.toks]
        intro h; exact hs h
      rw [he] at hn ⊢
      simp only [List.length_append, List.length_cons] at hn
      simp only [ptoks_append, ptoks_cons, c_comma, List.append_assoc, List.cons_append]
      have := iha.full true h.2.1 (.comma :: (ptoks as.toks ++ .rparen :: rest)) (stop_of _ trivial) n (by omega)
      have h3 := ihs.args true h.2.2 rest n (by omega)
      rw [h1, List.cons_append] at this ⊢
      rw [args_expr _ _ _ h2, this]
      simp only [h3]
  | fnil =>
    refine ⟨fun s h => absurd h (by simp [ExprOk]), fun s h => absurd h (by simp [ExprOk]), fun s h => absurd h (by simp [ExprOk]), fun s h => absurd h (by simp [ExprOk]), fun s h => absurd h (by simp [ExprOk]), ?_⟩
    intro s h rest n hn
    obtain ⟨n, rfl⟩ : ∃ m, n = m + 1 := ⟨n - 1, by omega⟩
    simp only [Expr.toks, ptoks_nil, List.nil_append]
    rw [RustParse.fields]
  | fcons x e r ihe ihr =>
    refine ⟨fun s h => absurd h (by simp [ExprOk]), fun s h => absurd h (by simp [ExprOk]), fun s h => absurd h (by simp [ExprOk]), fun s h => absurd h (by simp [ExprOk]), fun s h => absurd h (by simp [ExprOk]), ?_⟩
    intro s h rest n hn
    simp only [Expr.toks, List.length_append, List.length_cons] at hn
    obtain ⟨n, rfl⟩ : ∃ m, n = m + 1 := ⟨n - 1, by omega⟩
    simp only [Expr.toks, ptoks_append, ptoks_cons, c_colon, c_comma, classify_ident h.2.1, List.append_assoc, List.cons_append]
    rw [RustParse.fields, ihe.full true h.2.2.1 (.comma :: (ptoks r.toks ++ .rbrace :: rest)) (stop_of _ trivial) n (by omega)]
    simp only [ihr.fields true h.2.2.2 rest n (by omega)]


theorem full_reads {s : Bool} {e : Expr} (h : ExprOk .full s e) : ReadsFull s e := (expr_reads e).full s h

/-! ## Functions -/

theorem params_read (ps : List (Ident × Ty)) (h : ∀ p ∈ ps, Named p.1 ∧ TyOk p.2) (rest : List PTok) : ∀ n, (paramToks ps).length + 1 ≤ n →
    params n (ptoks (paramToks ps) ++ .rparen :: rest) = some (ps, rest) := by
  induction ps with
  | nil =>
    intro n hn
    obtain ⟨n, rfl⟩ : ∃ m, n = m + 1 := ⟨n - 1, by omega⟩
    rfl
  | cons p ps ih =>
    intro n hn
    obtain ⟨n, rfl⟩ : ∃ m, n = m + 1 := ⟨n - 1, by omega⟩
    have hp := h p (List.mem_cons_self ..)
    cases ps with
    | nil =>
      simp only [paramToks, List.length_cons] at hn
      simp only [paramToks, ptoks_cons, classify_ident hp.1, c_colon, List.cons_append]
      unfold params
      simp only [type_reads p.2 hp.2 (.rparen :: rest) (stopTy_of _ (by simp)) n (by omega)]
    | cons q qs =>
      have he : paramToks (p :: q :: qs) = .word p.1 :: .op go!":" :: p.2.toks ++ .op go!"," :: paramToks (q :: qs) := by
        rw [paramToks]; simp
      rw [he] at hn ⊢
      simp only [List.length_cons, List.length_append] at hn
      have h2 := ih (fun g hg => h g (List.mem_cons_of_mem _ hg)) n (by omega)
      simp only [ptoks_cons, ptoks_append, classify_ident hp.1, c_colon, c_comma, List.cons_append, List.append_assoc]
      unfold params
      simp only [type_reads p.2 hp.2 (.comma :: (ptoks (paramToks (q :: qs)) ++ .rparen :: rest)) (stopTy_of _ (by simp)) n (by omega), h2]

/-- The tokens after `fn`. -/
def sigToks (s : Sig) : List Tok := s.toks.tail

theorem sig_toks (s : Sig) : s.toks = .word go!"fn" :: sigToks s := rfl

/-- What follows a signature. -/
def StopSig (rest : List PTok) : Prop := (∃ r, rest = .lbrace :: r) ∨ ∃ r, rest = .semi :: r

theorem receiver_none (ps : List (Ident × Ty)) (h : ∀ p ∈ ps, Named p.1 ∧ TyOk p.2) (rest : List PTok) :
    receiver (ptoks (paramToks ps) ++ .rparen :: rest) = (none, ptoks (paramToks ps) ++ .rparen :: rest) := by
  cases ps with
  | nil => rfl
  | cons p ps =>
    have hp := h p (List.mem_cons_self ..)
    cases ps with
    | nil => simp only [paramToks, ptoks_cons, classify_ident hp.1, List.cons_append]; rfl
    | cons q qs =>
      rw [paramToks]
      · simp only [ptoks_cons, classify_ident hp.1, List.cons_append]; rfl
      · simp

theorem receiver_some (l : Frag) (ts : List PTok) : receiver (.amp :: .life l :: .kself :: .comma :: ts) = (some l, ts) := rfl

theorem signature_reads (s : Sig) (h : SigOk s) (rest : List PTok) (hr : StopSig rest) (n : Nat) (hn : s.toks.length ≤ n) :
    signature n (ptoks (sigToks s) ++ rest) = some (s, rest) := by
  obtain ⟨name, life, self, ps, ret, sz⟩ := s
  obtain ⟨h1, h2, h3⟩ := h
  simp only at h1 h2 h3
  -- the tail
  have htail : type n (ptoks ret.toks ++ (ptoks (if sz then [.word go!"where", .word go!"Self", .op go!":", .word go!"Sized"] else []) ++ rest)) =
      some (ret, ptoks (if sz then [.word go!"where", .word go!"Self", .op go!":", .word go!"Sized"] else []) ++ rest) := by
    apply type_reads ret h3
    · cases sz with
      | true => simp only [if_true, ptoks_cons, c_where, List.cons_append]; exact stopTy_of _ (by simp)
      | false =>
        simp only [Bool.false_eq_true, if_false, ptoks_nil, List.nil_append]
        rcases hr with ⟨r, rfl⟩ | ⟨r, rfl⟩ <;> exact stopTy_of _ (by simp)
    · simp only [Sig.toks, List.length_cons, List.length_append] at hn
      omega
  have hsized : sized (ptoks (if sz then [.word go!"where", .word go!"Self", .op go!":", .word go!"Sized"] else []) ++ rest) = (sz, rest) := by
    cases sz with
    | true =>
      simp only [if_true, ptoks_cons, ptoks_nil, c_where, c_Self, c_colon, c_Sized, List.cons_append, List.nil_append, sized]
    | false =>
      simp only [Bool.false_eq_true, if_false, ptoks_nil, List.nil_append]
      rcases hr with ⟨r, rfl⟩ | ⟨r, rfl⟩ <;> rfl
  have hps := params_read ps h2 (.arrow :: (ptoks ret.toks ++ (ptoks (if sz then [.word go!"where", .word go!"Self", .op go!":", .word go!"Sized"] else []) ++ rest))) n
    (by simp only [Sig.toks, List.length_cons, List.length_append] at hn; omega)
  have hrn := receiver_none ps h2 (.arrow :: (ptoks ret.toks ++ (ptoks (if sz then [.word go!"where", .word go!"Self", .op go!":", .word go!"Sized"] else []) ++ rest)))
  cases life <;> cases self <;>
    simp only [sigToks, Sig.toks, List.tail_cons, List.cons_append, ptoks_cons, ptoks_append, ptoks_nil, classify_ident h1, c_lt, c_gt, c_life, c_lparen, c_rparen, c_amp,
      c_self, c_comma, c_arrow, List.append_assoc, List.nil_append, signature, generics, receiver_some, hrn, hps, htail, hsized]

/-! ## Statements -/

theorem stmt_expr (n : Nat) (t : PTok) (ts : List PTok) (h : Starts t) : stmt (n + 1) (t :: ts) =
      match expr n true (t :: ts) with
      | some (e, .semi :: ts) => some (.expr e, ts)
      | some (e, .rbrace :: ts) => some (.tail e, .rbrace :: ts)
      | _ => none := by
  cases t <;> first | rfl | exact h.elim

theorem stmt_if (n : Nat) (t : PTok) (ts : List PTok) (h : Starts t) : stmt (n + 1) (.kif :: t :: ts) =
      match expr n false (t :: ts) with
      | some (e, .lbrace :: ts) =>
        match block n ts with
        | some (b, ts) => some (.if1 e b, ts)
        | none => none
      | _ => none := by
  cases t <;> first | rfl | exact h.elim

/-- What a statement can begin with. -/
theorem stmt_starts {s : Stmt} (h : StmtOk true s) : ∃ t ts, ptoks s.toks = t :: ts ∧ t ≠ .rbrace := by
  have ex : ∀ {e : Expr}, ExprOk .full true e → ∃ t ts, ptoks e.toks = t :: ts ∧ t ≠ .rbrace := by
    intro e he
    obtain ⟨t, ts, h1, h2⟩ := expr_starts e .full true trivial he
    exact ⟨t, ts, h1, by rintro rfl; exact h2⟩
  have key : ∀ (x : Tok) (xs : List Tok), classify x ≠ .rbrace → ∃ t ts, ptoks (x :: xs) = t :: ts ∧ t ≠ .rbrace := fun x xs hx => ⟨_, _, rfl, hx⟩
  cases s with
  | skip => exact absurd h (by simp [StmtOk])
  | seq s r => exact absurd h (by simp [StmtOk])
  | let1 m n e => exact key _ _ (by decide +kernel)
  | expr e =>
    obtain ⟨t, ts, h1, h2⟩ := ex h.2
    exact ⟨t, _, by simp only [Stmt.toks, ptoks_append, h1, List.cons_append]; rfl, h2⟩
  | tail e => exact ex h.2
  | ret e => exact key _ _ (by decide +kernel)
  | if1 c t => exact key _ _ (by decide +kernel)
  | ifLet c x e t => exact key _ _ (by decide +kernel)
  | for1 x e b => exact key _ _ (by decide +kernel)
  | for2 x y e b => exact key _ _ (by decide +kernel)
  | func sig b => exact key _ _ (by decide +kernel)

theorem block_stmt (n : Nat) (t : PTok) (ts : List PTok) (h : t ≠ .rbrace) : block (n + 1) (t :: ts) =
      match stmt n (t :: ts) with
      | some (s, ts) =>
        match block n ts with
        | some (rest, ts) => some (.seq s rest, ts)
        | none => none
      | none => none := by
  rw [block]
  · rfl
  · intro r hr; cases hr; exact h rfl

def Reads1 (s : Stmt) : Prop := ∀ rest, ((∃ e, s = .tail e) → ∃ r, rest = .rbrace :: r) → ∀ n, 6 * s.toks.length + 3 ≤ n →
  stmt n (ptoks s.toks ++ rest) = some (s, rest)

def ReadsBlock (s : Stmt) : Prop := ∀ rest n, 6 * s.toks.length + 4 ≤ n → block n (ptoks s.toks ++ .rbrace :: rest) = some (s, rest)

theorem stmt_reads (s : Stmt) : (StmtOk true s → Reads1 s) ∧ (StmtOk false s → ReadsBlock s) := by
  induction s with
  | skip =>
    refine ⟨fun h => absurd h (by simp [StmtOk]), fun _ => ?_⟩
    intro rest n hn
    obtain ⟨n, rfl⟩ : ∃ m, n = m + 1 := ⟨n - 1, by omega⟩
    simp only [Stmt.toks, ptoks_nil, List.nil_append]
    rw [block]
  | seq s r ihs ihr =>
    refine ⟨fun h => absurd h (by simp [StmtOk]), fun h => ?_⟩
    intro rest n hn
    simp only [Stmt.toks, List.length_append] at hn
    obtain ⟨n, rfl⟩ : ∃ m, n = m + 1 := ⟨n - 1, by omega⟩
    obtain ⟨t, ts, h1, h2⟩ := stmt_starts h.2.1
    have hl := congrArg List.length h1
    simp only [ptoks_length, List.length_cons] at hl
    have hs := ihs.1 h.2.1 (ptoks r.toks ++ .rbrace :: rest) (by
      intro ht
      rw [h.2.2.2 ht]
      exact ⟨rest, rfl⟩) n (by omega)
    have hr := ihr.2 h.2.2.1 rest n (by omega)
    simp only [Stmt.toks, ptoks_append, List.append_assoc]
    rw [h1, List.cons_append] at hs ⊢
    rw [block_stmt _ _ _ h2, hs]
    simp only [hr]
  | let1 m x e =>
    refine ⟨fun h => ?_, fun h => absurd h.1 (by simp)⟩
    intro rest _ n hn
    simp only [Stmt.toks, List.length_cons, List.length_append, List.length_nil] at hn
    obtain ⟨n, rfl⟩ : ∃ m, n = m + 1 := ⟨n - 1, by omega⟩
    simp only [Stmt.toks, ptoks_cons, ptoks_append, ptoks_nil, c_let, classify_ident h.2.1, c_assign, c_semi, List.cons_append, List.append_assoc, List.nil_append]
    unfold stmt
    simp only [mutable_reads m (.ident x :: .assign :: (ptoks e.toks ++ .semi :: rest)) (by simp),
      full_reads h.2.2 (.semi :: rest) (stop_of _ trivial) n (by omega)]
  | expr e =>
    refine ⟨fun h => ?_, fun h => absurd h.1 (by simp)⟩
    intro rest _ n hn
    simp only [Stmt.toks, List.length_cons, List.length_append, List.length_nil] at hn
    obtain ⟨n, rfl⟩ : ∃ m, n = m + 1 := ⟨n - 1, by omega⟩
    obtain ⟨t, ts, h1, h2⟩ := expr_starts e .full true trivial h.2
    have he := full_reads h.2 (.semi :: rest) (stop_of _ trivial) n (by omega)
    simp only [Stmt.toks, ptoks_append, ptoks_cons, ptoks_nil, c_semi, List.append_assoc, List.cons_append, List.nil_append]
    rw [h1, List.cons_append] at he ⊢
    rw [stmt_expr _ _ _ h2, he]
  | tail e =>
    refine ⟨fun h => ?_, fun h => absurd h.1 (by simp)⟩
    intro rest hr n hn
    simp only [Stmt.toks] at hn
    obtain ⟨n, rfl⟩ : ∃ m, n = m + 1 := ⟨n - 1, by omega⟩
    obtain ⟨r, rfl⟩ := hr ⟨e, rfl⟩
    obtain ⟨t, ts, h1, h2⟩ := expr_starts e .full true trivial h.2
    have he := full_reads h.2 (.rbrace :: r) (stop_of _ trivial) n (by omega)
    simp only [Stmt.toks]
    rw [h1, List.cons_append] at he ⊢
    rw [stmt_expr _ _ _ h2, he]
  | ret e =>
    refine ⟨fun h => ?_, fun h => absurd h.1 (by simp)⟩
    intro rest _ n hn
    simp only [Stmt.toks, List.length_cons, List.length_append, List.length_nil] at hn
    obtain ⟨n, rfl⟩ : ∃ m, n = m + 1 := ⟨n - 1, by omega⟩
    simp only [Stmt.toks, ptoks_cons, ptoks_append, ptoks_nil, c_return, c_semi, List.cons_append, List.append_assoc, List.nil_append]
    unfold stmt
    simp only [full_reads h.2 (.semi :: rest) (stop_of _ trivial) n (by omega)]
  | if1 c b ih =>
    refine ⟨fun h => ?_, fun h => absurd h.1 (by simp)⟩
    intro rest _ n hn
    simp only [Stmt.toks, List.length_cons, List.length_append, List.length_nil] at hn
    obtain ⟨n, rfl⟩ : ∃ m, n = m + 1 := ⟨n - 1, by omega⟩
    obtain ⟨t, ts, h1, h2⟩ := expr_starts c .full false trivial h.2.1
    have he := full_reads h.2.1 (.lbrace :: (ptoks b.toks ++ .rbrace :: rest)) (stop_block _) n (by omega)
    simp only [Stmt.toks, ptoks_cons, ptoks_append, ptoks_nil, c_if, c_lbrace, c_rbrace, List.cons_append, List.append_assoc, List.nil_append]
    rw [h1, List.cons_append] at he ⊢
    rw [stmt_if _ _ _ h2, he]
    simp only [ih.2 h.2.2 rest n (by omega)]
  | ifLet c x e b ih =>
    refine ⟨fun h => ?_, fun h => absurd h.1 (by simp)⟩
    intro rest _ n hn
    simp only [Stmt.toks, List.length_cons, List.length_append, List.length_nil] at hn
    obtain ⟨n, rfl⟩ : ∃ m, n = m + 1 := ⟨n - 1, by omega⟩
    simp only [Stmt.toks, ptoks_cons, ptoks_append, ptoks_nil, c_if, c_let, c_lparen, c_rparen, c_assign, classify_ident h.2.1, classify_ident h.2.2.1, c_lbrace, c_rbrace,
      List.cons_append, List.append_assoc, List.nil_append]
    unfold stmt
    simp only [full_reads h.2.2.2.1 (.lbrace :: (ptoks b.toks ++ .rbrace :: rest)) (stop_block _) n (by omega), ih.2 h.2.2.2.2 rest n (by omega)]
  | for1 x e b ih =>
    refine ⟨fun h => ?_, fun h => absurd h.1 (by simp)⟩
    intro rest _ n hn
    simp only [Stmt.toks, List.length_cons, List.length_append, List.length_nil] at hn
    obtain ⟨n, rfl⟩ : ∃ m, n = m + 1 := ⟨n - 1, by omega⟩
    have h1 := full_reads h.2.2.1 (.lbrace :: (ptoks b.toks ++ .rbrace :: rest)) (stop_block _) n (by omega)
    have h2 := ih.2 h.2.2.2 rest n (by omega)
    rcases h.2.1 with hx | rfl
    · simp only [Stmt.toks, ptoks_cons, ptoks_append, ptoks_nil, c_for, c_in, classify_ident hx, c_lbrace, c_rbrace, List.cons_append, List.append_assoc, List.nil_append]
      unfold stmt
      simp only [h1, h2]
    · simp only [Stmt.toks, ptoks_cons, ptoks_append, ptoks_nil, c_for, c_in, c_underscore, c_lbrace, c_rbrace, List.cons_append, List.append_assoc, List.nil_append]
      unfold stmt
      simp only [h1, h2]
  | for2 x y e b ih =>
    refine ⟨fun h => ?_, fun h => absurd h.1 (by simp)⟩
    intro rest _ n hn
    simp only [Stmt.toks, List.length_cons, List.length_append, List.length_nil] at hn
    obtain ⟨n, rfl⟩ : ∃ m, n = m + 1 := ⟨n - 1, by omega⟩
    have h1 := full_reads h.2.2.2.1 (.lbrace :: (ptoks b.toks ++ .rbrace :: rest)) (stop_block _) n (by omega)
    have h2 := ih.2 h.2.2.2.2 rest n (by omega)
    simp only [Stmt.toks, ptoks_cons, ptoks_append, ptoks_nil, c_for, c_in, c_lparen, c_rparen, c_comma, classify_ident h.2.1, classify_ident h.2.2.1, c_lbrace, c_rbrace,
      List.cons_append, List.append_assoc, List.nil_append]
    unfold stmt
    simp only [h1, h2]
  | func sig b ih =>
    refine ⟨fun h => ?_, fun h => absurd h.1 (by simp)⟩
    intro rest _ n hn
    simp only [Stmt.toks, List.length_cons, List.length_append, List.length_nil] at hn
    obtain ⟨n, rfl⟩ : ∃ m, n = m + 1 := ⟨n - 1, by omega⟩
    have h1 := signature_reads sig h.2.1 (.lbrace :: (ptoks b.toks ++ .rbrace :: rest)) (.inl ⟨_, rfl⟩) n (by omega)
    have h2 := ih.2 h.2.2 rest n (by omega)
    simp only [Stmt.toks, sig_toks, ptoks_cons, ptoks_append, ptoks_nil, c_fn, c_lbrace, c_rbrace, List.cons_append, List.append_assoc, List.nil_append]
    unfold stmt
    simp only [h1, h2]

/-! ## Items -/

theorem attributes_read (as : List (Ident × List Ident)) (h : ∀ a ∈ as, Named a.1 ∧ a.2 ≠ [] ∧ ∀ i ∈ a.2, Named i) (rest : List PTok)
    (hr : ∀ r, rest ≠ .hash :: r) : ∀ n, as.length + 1 ≤ n →
    attributes n (ptoks (as.flatMap (fun a => .op go!"#" :: .op go!"[" :: .word a.1 :: .op go!"(" :: commaToks a.2 ++ [.op go!")", .op go!"]"])) ++ rest) = some (as, rest) := by
  induction as with
  | nil =>
    intro n hn
    obtain ⟨n, rfl⟩ : ∃ m, n = m + 1 := ⟨n - 1, by omega⟩
    simp only [List.flatMap_nil, ptoks_nil, List.nil_append]
    rw [attributes]
    intro a r hx; exact hr _ hx
  | cons a as ih =>
    intro n hn
    simp only [List.length_cons] at hn
    obtain ⟨n, rfl⟩ : ∃ m, n = m + 1 := ⟨n - 1, by omega⟩
    have ha := h a (List.mem_cons_self ..)
    have h2 := ih (fun b hb => h b (List.mem_cons_of_mem _ hb)) n (by omega)
    simp only [List.flatMap_cons, ptoks_append, ptoks_cons, ptoks_nil, c_hash, c_lbrack, c_rbrack, c_lparen, c_rparen, classify_ident ha.1, List.cons_append, List.append_assoc,
      List.nil_append] at h2 ⊢
    unfold attributes
    have hi := fun r => idents_read a.2 ha.2.1 ha.2.2 (.rparen :: r) (by simp)
    simp only [hi, h2]

theorem variants_read (vs : List (Ident × Frag)) (h : ∀ v ∈ vs, Named v.1) (rest : List PTok) :
    variants (ptoks (vs.flatMap (fun v => [.word v.1, .op go!"=", .num v.2, .op go!","])) ++ .rbrace :: rest) = some (vs, rest) := by
  induction vs with
  | nil => rfl
  | cons v vs ih =>
    have hv := h v (List.mem_cons_self ..)
    simp only [List.flatMap_cons, ptoks_append, ptoks_cons, ptoks_nil, c_assign, c_num, c_comma, classify_ident hv, List.cons_append, List.nil_append]
    rw [variants, ih fun g hg => h g (List.mem_cons_of_mem _ hg)]

theorem visibility_reads (v : Vis) (x : Ident) (ts : List PTok) : visibility (ptoks v.toks ++ .ident x :: ts) = (v, .ident x :: ts) := by
  cases v with
  | priv => rfl
  | pub => simp only [Vis.toks, ptoks_cons, ptoks_nil, c_pub, List.cons_append, List.nil_append]; rfl
  | crate => simp only [Vis.toks, ptoks_cons, ptoks_nil, c_pub, c_lparen, c_crate, c_rparen, List.cons_append, List.nil_append]; rfl

theorem visibility_rbrace (v : Vis) (x : Ident) (ts : List PTok) : ∀ r, ptoks v.toks ++ .ident x :: ts ≠ .rbrace :: r := by
  cases v with
  | priv => intro r h; cases h
  | pub => intro r; simp [Vis.toks]
  | crate => intro r; simp [Vis.toks]

/-- The tokens of the fields of a struct. -/
def memberToks (fs : List (Vis × Ident × Ty)) : List Tok := fs.flatMap (fun f => f.1.toks ++ .word f.2.1 :: .op go!":" :: f.2.2.toks ++ [.op go!","])

theorem memberToks_cons (f : Vis × Ident × Ty) (fs : List (Vis × Ident × Ty)) :
    memberToks (f :: fs) = f.1.toks ++ .word f.2.1 :: .op go!":" :: f.2.2.toks ++ .op go!"," :: memberToks fs := by simp [memberToks]

theorem members_other (n : Nat) (ts : List PTok) (h : ∀ r, ts ≠ .rbrace :: r) : members (n + 1) ts =
      match (visibility ts).2 with
      | .ident x :: .colon :: us =>
        match type n us with
        | some (t, .comma :: us) =>
          match members n us with
          | some (fs, us) => some (((visibility ts).1, x, t) :: fs, us)
          | none => none
        | _ => none
      | _ => none := by
  rw [members]
  · rfl
  · exact h

theorem members_read (fs : List (Vis × Ident × Ty)) (h : ∀ f ∈ fs, Named f.2.1 ∧ TyOk f.2.2) (rest : List PTok) : ∀ n, (memberToks fs).length + 1 ≤ n →
    members n (ptoks (memberToks fs) ++ .rbrace :: rest) = some (fs, rest) := by
  induction fs with
  | nil =>
    intro n hn
    obtain ⟨n, rfl⟩ : ∃ m, n = m + 1 := ⟨n - 1, by omega⟩
    rfl
  | cons f fs ih =>
    intro n hn
    have hf := h f (List.mem_cons_self ..)
    rw [memberToks_cons] at hn ⊢
    simp only [List.length_append, List.length_cons] at hn
    obtain ⟨n, rfl⟩ : ∃ m, n = m + 1 := ⟨n - 1, by omega⟩
    have h2 := ih (fun b hb => h b (List.mem_cons_of_mem _ hb)) n (by omega)
    simp only [ptoks_append, ptoks_cons, c_colon, c_comma, classify_ident hf.1, List.cons_append, List.append_assoc]
    rw [members_other _ _ (visibility_rbrace _ _ _)]
    simp only [visibility_reads, type_reads f.2.2 hf.2 (.comma :: (ptoks (memberToks fs) ++ .rbrace :: rest)) (stopTy_of _ (by simp)) n (by omega), h2]

theorem item_enum (n : Nat) (ts : List PTok) (h : (∃ r, ts = .hash :: r) ∨ ∃ r, ts = .kpub :: .kenum :: r) : item n ts =
    match attributes n ts with
    | some (as, .kpub :: .kenum :: .ident x :: .lbrace :: ts) =>
      match variants ts with
      | some (vs, ts) => some (.enum as x vs, ts)
      | none => none
    | _ => none := by
  rcases h with ⟨r, rfl⟩ | ⟨r, rfl⟩ <;> rfl

theorem item_reads (i : Item) (h : ItemOk i) (rest : List PTok) (n : Nat) (hn : 6 * i.toks.length + 12 ≤ n) : item n (ptoks i.toks ++ rest) = some (i, rest) := by
  cases i with
  | use1 p =>
    simp only [Item.toks, ptoks_cons, ptoks_append, ptoks_nil, c_use, c_semi, List.cons_append, List.append_assoc, List.nil_append]
    unfold item
    simp only [path_reads h (ends_of _ (by simp : PTok.semi ≠ .colons))]
  | use2 p is =>
    simp only [Item.toks, ptoks_cons, ptoks_append, ptoks_nil, c_use, c_semi, c_colons, c_lbrace, c_rbrace, List.cons_append, List.append_assoc, List.nil_append]
    unfold item
    have hp := path_reads h.1 (rest := .colons :: .lbrace :: (ptoks (commaToks is) ++ .rbrace :: .semi :: rest)) rfl
    simp only [hp, idents_read is h.2.1 h.2.2 (.rbrace :: .semi :: rest) (by simp)]
  | enum as x vs =>
    simp only [Item.toks, List.length_append, List.length_cons] at hn
    have hl : as.length ≤ (as.flatMap (fun a => .op go!"#" :: .op go!"[" :: .word a.1 :: .op go!"(" :: commaToks a.2 ++ [.op go!")", .op go!"]"])).length := by
      clear hn h
      induction as with
      | nil => simp
      | cons a as ih => simp only [List.flatMap_cons, List.length_append, List.length_cons] at ih ⊢; omega
    have ha := attributes_read as h.1 (.kpub :: .kenum :: .ident x :: .lbrace ::
      (ptoks (vs.flatMap (fun v => [.word v.1, .op go!"=", .num v.2, .op go!","])) ++ .rbrace :: rest)) (by simp) n (by omega)
    have hv := variants_read vs h.2.2 rest
    have hs : (∃ r, ptoks (Item.enum as x vs).toks ++ rest = .hash :: r) ∨ ∃ r, ptoks (Item.enum as x vs).toks ++ rest = .kpub :: .kenum :: r := by
      cases as with
      | nil => right; exact ⟨_, by simp only [Item.toks, List.flatMap_nil, List.nil_append, ptoks_cons, c_pub, c_enum, List.cons_append]; rfl⟩
      | cons a as => left; exact ⟨_, by simp only [Item.toks, List.flatMap_cons, ptoks_cons, c_hash, List.cons_append]; rfl⟩
    rw [item_enum _ _ hs]
    simp only [Item.toks, ptoks_cons, ptoks_append, ptoks_nil, c_pub, c_enum, classify_ident h.2.1, c_lbrace, c_rbrace, List.cons_append, List.append_assoc, List.nil_append] at ha hv ⊢
    simp only [ha, hv]
  | struct x fs =>
    have he : (Item.struct x fs).toks = .word go!"pub" :: .word go!"struct" :: .word x :: .op go!"{" :: memberToks fs ++ [.op go!"}"] := rfl
    rw [he] at hn ⊢
    simp only [List.length_append, List.length_cons] at hn
    simp only [ptoks_cons, ptoks_append, ptoks_nil, c_pub, c_struct, classify_ident h.1, c_lbrace, c_rbrace, List.cons_append, List.append_assoc, List.nil_append]
    unfold item
    simp only [members_read fs h.2 rest n (by omega)]
  | trait x sig =>
    simp only [Item.toks, List.length_append, List.length_cons] at hn
    simp only [Item.toks, sig_toks, ptoks_cons, ptoks_append, ptoks_nil, c_pub, c_trait, c_fn, classify_ident h.1, c_lbrace, c_rbrace, c_semi, List.cons_append, List.append_assoc, List.nil_append]
    unfold item
    simp only [signature_reads sig h.2 (.semi :: .rbrace :: rest) (.inr ⟨_, rfl⟩) n (by omega)]
  | impl t x sig b =>
    simp only [Item.toks, List.length_append, List.length_cons] at hn
    simp only [Item.toks, sig_toks, ptoks_cons, ptoks_append, ptoks_nil, c_impl, c_for, c_fn, classify_ident h.1, classify_ident h.2.1, c_lbrace, c_rbrace, List.cons_append, List.append_assoc,
      List.nil_append]
    unfold item
    simp only [signature_reads sig h.2.2.1 (.lbrace :: (ptoks b.toks ++ .rbrace :: .rbrace :: rest)) (.inl ⟨_, rfl⟩) n (by omega),
      (stmt_reads b).2 h.2.2.2 (.rbrace :: rest) n (by omega)]

theorem item_nonempty (i : Item) : 1 ≤ i.toks.length := by
  cases i <;> simp [Item.toks]
  omega

/-- Reading on after items that can be read. -/
theorem items_append (n : Nat) (is : List Item) (h : ∀ i ∈ is, ItemOk i) (hn : 6 * (file is).length + 12 ≤ n) (rest : List PTok) : ∀ fuel,
    items n (fuel + is.length) (ptoks (file is) ++ rest) = (items n fuel rest).map (is ++ ·) := by
  induction is with
  | nil => intro fuel; simp [file]
  | cons i is ih =>
    intro fuel
    simp only [file, List.flatMap_cons, List.length_append] at hn
    have h1 := item_reads i (h i (List.mem_cons_self ..)) (ptoks (file is) ++ rest) n (by omega)
    have h2 := item_nonempty i
    have h3 := ih (fun e he => h e (List.mem_cons_of_mem _ he)) (by simp only [file]; omega) fuel
    have he : ptoks (file (i :: is)) ++ rest = ptoks i.toks ++ (ptoks (file is) ++ rest) := by simp [file]
    rw [he, List.length_cons, ← Nat.add_assoc, items]
    · simp only [h1, h3, Option.map_map]; rfl
    · intro h4
      have := congrArg List.length h4
      simp only [List.length_append, ptoks_length, List.length_nil] at this
      omega

theorem file_length (is : List Item) : is.length ≤ (file is).length := by
  induction is with
  | nil => simp
  | cons i is ih =>
    have := item_nonempty i
    simp only [file, List.flatMap_cons, List.length_append, List.length_cons] at ih ⊢
    omega

/-- The parser reads the tokens of a program as that program. -/
theorem parse_file (is : List Item) (h : ∀ i ∈ is, ItemOk i) : parse (file is) = some is := by
  have hl := file_length is
  have := items_append (6 * (file is).length + 16) is h (by omega) [] ((file is).length + 1 - is.length)
  rw [show (file is).length + 1 - is.length + is.length = (file is).length + 1 by omega, List.append_nil] at this
  unfold parse
  rw [ptoks] at this
  rw [this, show (file is).length + 1 - is.length = ((file is).length - is.length) + 1 by omega]
  simp [items]

end RustParse
