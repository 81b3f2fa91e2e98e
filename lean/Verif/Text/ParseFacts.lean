import Verif.Text.Parse

/-!
# The parser reads what is printed
-/

namespace GoParse

open Text GoAst

/-! ## Trees that can be read back -/

/-- An identifier. -/
def Named (n : Ident) : Prop := n ∉ keywords

def Ty.Ok : Ty → Prop
  | .name n => Named n
  | .qual p n => Named p ∧ Named n
  | .slice t => Ty.Ok t
  | .ptr t => Ty.Ok t
  | .map k v => Ty.Ok k ∧ Ty.Ok v

/-- Where an expression stands: before a selector, index or arguments; as an operand; anywhere. -/
inductive Level where
  | post | prim | full

/-- Expressions that need no parentheses. -/
def ExprOk : Level → Expr → Prop
  | _, .var n => Named n ∧ n ≠ go!"make"
  | _, .num _ => True
  | _, .str _ => True
  | _, .sel e n => ExprOk .post e ∧ Named n
  | _, .index e i => ExprOk .post e ∧ ExprOk .full i
  | _, .call0 f => ExprOk .post f
  | _, .call1 f a => ExprOk .post f ∧ ExprOk .full a
  | _, .call2 f a b => ExprOk .post f ∧ ExprOk .full a ∧ ExprOk .full b
  | _, .call3 f a b c => ExprOk .post f ∧ ExprOk .full a ∧ ExprOk .full b ∧ ExprOk .full c
  | _, .make t n => Ty.Ok t ∧ ExprOk .full n
  | .post, .new _ _ => False
  | _, .new t fs => Named t ∧ ∀ f ∈ fs, Named f.1 ∧ Named f.2
  | .full, .eq a b => ExprOk .prim a ∧ ExprOk .prim b
  | .full, .ne a b => ExprOk .prim a ∧ ExprOk .prim b
  | .full, .lt a b => ExprOk .prim a ∧ ExprOk .prim b
  | .full, .not a => ExprOk .prim a
  | _, _ => False

/-- `one`: a single statement; otherwise a list. -/
def StmtOk : (one : Bool) → Stmt → Prop
  | one, .skip => one = false
  | one, .seq s rest => one = false ∧ StmtOk true s ∧ StmtOk false rest
  | one, .expr e => one = true ∧ ExprOk .full e
  | one, .assign l e => one = true ∧ ExprOk .full l ∧ ExprOk .full e
  | one, .assign2 l m e => one = true ∧ ExprOk .full l ∧ ExprOk .full m ∧ ExprOk .full e
  | one, .define n e => one = true ∧ ExprOk .full (.var n) ∧ ExprOk .full e
  | one, .defer e => one = true ∧ ExprOk .full e
  | one, .define2 l m e => one = true ∧ ExprOk .full (.var l) ∧ ExprOk .full (.var m) ∧ ExprOk .full e
  | one, .var n t => one = true ∧ Named n ∧ Ty.Ok t
  | one, .ret => one = true
  | one, .ret1 e => one = true ∧ ExprOk .full e
  | one, .if1 c t => one = true ∧ ExprOk .full c ∧ StmtOk false t
  | one, .ite c t f tight => one = true ∧ ExprOk .full c ∧ StmtOk false t ∧ StmtOk false f ∧ (tight = true → f ≠ .skip)
  | one, .for3 i e c b => one = true ∧ Named i ∧ ExprOk .full e ∧ ExprOk .full c ∧ StmtOk false b
  | one, .range k v e b => one = true ∧ Named k ∧ Named v ∧ ExprOk .full e ∧ StmtOk false b

def DeclOk : Decl → Prop
  | .package n => Named n
  | .imports _ => True
  | .type n t => Named n ∧ Ty.Ok t
  | .struct n fs => Named n ∧ ∀ f ∈ fs, Named f.1 ∧ Ty.Ok f.2
  | .vars ds => ∀ d ∈ ds, Named d.1 ∧ ExprOk .full d.2
  | .consts ds => ∀ d ∈ ds, Named d.1 ∧ ExprOk .full d.2
  | .func recv name ps r body => (∀ x t, recv = some (x, t) → Named x ∧ Ty.Ok t) ∧ Named name ∧ (∀ p ∈ ps, Named p.1 ∧ Ty.Ok p.2) ∧
      (∀ t, r = some t → Ty.Ok t) ∧ StmtOk false body

/-! ## Classified tokens -/

theorem classify_ident {n : Ident} (h : Named n) : classify (.word n) = .ident n := by
  unfold Named at h
  simp [classify, h]

def ptoks (ts : List Tok) : List PTok := ts.map classify

@[simp] theorem ptoks_nil : ptoks [] = [] := rfl
@[simp] theorem ptoks_cons (t : Tok) (ts : List Tok) : ptoks (t :: ts) = classify t :: ptoks ts := rfl
@[simp] theorem ptoks_append (a b : List Tok) : ptoks (a ++ b) = ptoks a ++ ptoks b := List.map_append
@[simp] theorem ptoks_length (a : List Tok) : (ptoks a).length = a.length := List.length_map _

@[simp] theorem c_dot : classify (.op go!".") = .dot := by decide +kernel
@[simp] theorem c_comma : classify (.op go!",") = .comma := by decide +kernel
@[simp] theorem c_semi : classify semi = .semi := by decide +kernel
@[simp] theorem c_lparen : classify (.op go!"(") = .lparen := by decide +kernel
@[simp] theorem c_rparen : classify (.op go!")") = .rparen := by decide +kernel
@[simp] theorem c_lbrack : classify (.op go!"[") = .lbrack := by decide +kernel
@[simp] theorem c_rbrack : classify (.op go!"]") = .rbrack := by decide +kernel
@[simp] theorem c_lbrace : classify (.op go!"{") = .lbrace := by decide +kernel
@[simp] theorem c_rbrace : classify (.op go!"}") = .rbrace := by decide +kernel
@[simp] theorem c_star : classify (.op go!"*") = .star := by decide +kernel
@[simp] theorem c_amp : classify (.op go!"&") = .amp := by decide +kernel
@[simp] theorem c_bang : classify (.op go!"!") = .bang := by decide +kernel
@[simp] theorem c_assign : classify (.op go!"=") = .assign := by decide +kernel
@[simp] theorem c_define : classify (.op go!":=") = .define := by decide +kernel
@[simp] theorem c_eq : classify (.op go!"==") = .eq := by decide +kernel
@[simp] theorem c_ne : classify (.op go!"!=") = .ne := by decide +kernel
@[simp] theorem c_lt : classify (.op go!"<") = .lt := by decide +kernel
@[simp] theorem c_inc : classify (.op go!"++") = .inc := by decide +kernel
@[simp] theorem c_colon : classify (.op go!":") = .colon := by decide +kernel
@[simp] theorem c_defer : classify (.word go!"defer") = .kdefer := by decide +kernel
@[simp] theorem c_package : classify (.word go!"package") = .kpackage := by decide +kernel
@[simp] theorem c_import : classify (.word go!"import") = .kimport := by decide +kernel
@[simp] theorem c_type : classify (.word go!"type") = .ktype := by decide +kernel
@[simp] theorem c_struct : classify (.word go!"struct") = .kstruct := by decide +kernel
@[simp] theorem c_var : classify (.word go!"var") = .kvar := by decide +kernel
@[simp] theorem c_const : classify (.word go!"const") = .kconst := by decide +kernel
@[simp] theorem c_func : classify (.word go!"func") = .kfunc := by decide +kernel
@[simp] theorem c_return : classify (.word go!"return") = .kreturn := by decide +kernel
@[simp] theorem c_if : classify (.word go!"if") = .kif := by decide +kernel
@[simp] theorem c_else : classify (.word go!"else") = .kelse := by decide +kernel
@[simp] theorem c_for : classify (.word go!"for") = .kfor := by decide +kernel
@[simp] theorem c_range : classify (.word go!"range") = .krange := by decide +kernel
@[simp] theorem c_map : classify (.word go!"map") = .kmap := by decide +kernel
@[simp] theorem c_num (s : Frag) : classify (.num s) = .num s := rfl
@[simp] theorem c_str (s : Frag) : classify (.str s) = .str s := rfl
theorem c_make : classify (.word go!"make") = .ident go!"make" := by decide +kernel

/-! ## Types -/

theorem type_reads (t : Ty) : Ty.Ok t → ∀ (rest : List PTok), (∀ ts, rest ≠ .dot :: ts) → ∀ n, t.toks.length ≤ n →
    type n (ptoks t.toks ++ rest) = some (t, rest) := by
  induction t with
  | name x =>
    intro h rest hr n hn
    obtain ⟨n, rfl⟩ : ∃ m, n = m + 1 := ⟨n - 1, by simp [Ty.toks] at hn; omega⟩
    simp only [Ty.toks, ptoks_cons, ptoks_nil, classify_ident h, List.cons_append, List.nil_append]
    unfold type
    split
    · rename_i h2; cases h2; exact absurd rfl (hr _)
    · rename_i h2; cases h2; rfl
    · rename_i h2; cases h2
    · rename_i h2; cases h2
    · rename_i h2; cases h2
    · rename_i h3 _ _ _; exact absurd rfl (h3 _ _)
  | qual p x =>
    intro h rest hr n hn
    obtain ⟨n, rfl⟩ : ∃ m, n = m + 1 := ⟨n - 1, by simp [Ty.toks] at hn; omega⟩
    simp only [Ty.toks, ptoks_cons, ptoks_nil, classify_ident h.1, classify_ident h.2, List.cons_append, List.nil_append, c_dot]
    rfl
  | slice t ih =>
    intro h rest hr n hn
    simp only [Ty.toks, List.length_cons] at hn
    obtain ⟨n, rfl⟩ : ∃ m, n = m + 1 := ⟨n - 1, by omega⟩
    simp only [Ty.toks, ptoks_cons, c_lbrack, c_rbrack, List.cons_append]
    unfold type
    simp only [ih h rest hr n (by omega)]
  | ptr t ih =>
    intro h rest hr n hn
    simp only [Ty.toks, List.length_cons] at hn
    obtain ⟨n, rfl⟩ : ∃ m, n = m + 1 := ⟨n - 1, by omega⟩
    simp only [Ty.toks, ptoks_cons, c_star, List.cons_append]
    unfold type
    simp only [ih h rest hr n (by omega)]
  | map k v ihk ihv =>
    intro h rest hr n hn
    simp only [Ty.toks, List.length_cons, List.length_append] at hn
    obtain ⟨n, rfl⟩ : ∃ m, n = m + 1 := ⟨n - 1, by omega⟩
    simp only [Ty.toks, ptoks_cons, c_lbrack, c_rbrack, c_map, List.cons_append, ptoks_append, List.append_assoc]
    unfold type
    simp only [ihk h.1 (.rbrack :: (ptoks v.toks ++ rest)) (by intro ts h; cases h) n (by omega), ihv h.2 rest hr n (by omega)]

/-! ## Expressions -/

/-- What an expression can begin with. -/
def Starts : PTok → Prop
  | .ident _ => True
  | .num _ => True
  | .str _ => True
  | .amp => True
  | _ => False

theorem starts_append {a b : List PTok} (h : ∃ t ts, a = t :: ts ∧ Starts t) : ∃ t ts, a ++ b = t :: ts ∧ Starts t := by
  obtain ⟨t, ts, rfl, h⟩ := h
  exact ⟨t, ts ++ b, rfl, h⟩

theorem expr_starts : ∀ (e : Expr) (l : Level), ExprOk l e → ∃ t ts, ptoks e.toks = t :: ts ∧ (Starts t ∨ t = .bang ∧ ∃ a, e = .not a) := by
  intro e
  have go : ∀ (e : Expr) (l : Level), ExprOk l e → (∀ a, e ≠ .not a) → ∃ t ts, ptoks e.toks = t :: ts ∧ Starts t := by
    intro e
    induction e with
    | var n =>
      intro l h _
      refine ⟨.ident n, [], ?_, trivial⟩
      rw [Expr.toks, ptoks_cons, classify_ident]
      · rfl
      · cases l <;> exact h.1
    | num n => intro l h _; exact ⟨.num n, [], rfl, trivial⟩
    | str n => intro l h _; exact ⟨.str n, [], rfl, trivial⟩
    | sel e n ih =>
      intro l h _
      have := ih .post (by cases l <;> exact h.1) (by rintro a rfl; cases l <;> exact h.1)
      simp only [Expr.toks, ptoks_append]
      exact starts_append this
    | index e i ih =>
      intro l h _
      have := ih .post (by cases l <;> exact h.1) (by rintro a rfl; cases l <;> exact h.1)
      simp only [Expr.toks, ptoks_append, List.append_assoc]
      exact starts_append this
    | call0 e ih =>
      intro l h _
      have := ih .post (by cases l <;> exact h) (by rintro a rfl; cases l <;> exact h)
      simp only [Expr.toks, ptoks_append]
      exact starts_append this
    | call1 e a ih =>
      intro l h _
      have := ih .post (by cases l <;> exact h.1) (by rintro a rfl; cases l <;> exact h.1)
      simp only [Expr.toks, ptoks_append, List.append_assoc]
      exact starts_append this
    | call2 e a b ih =>
      intro l h _
      have := ih .post (by cases l <;> exact h.1) (by rintro a rfl; cases l <;> exact h.1)
      simp only [Expr.toks, ptoks_append, List.append_assoc]
      exact starts_append this
    | call3 e a b c ih =>
      intro l h _
      have := ih .post (by cases l <;> exact h.1) (by rintro a rfl; cases l <;> exact h.1)
      simp only [Expr.toks, ptoks_append, List.append_assoc]
      exact starts_append this
    | make t n => intro l h _; exact ⟨.ident go!"make", _, by simp only [Expr.toks, ptoks_cons, ptoks_append, List.cons_append]; rw [c_make], trivial⟩
    | new t fs => intro l h _; exact ⟨.amp, _, by simp only [Expr.toks, ptoks_cons, c_amp, List.cons_append]; rfl, trivial⟩
    | eq a b iha =>
      intro l h _
      have h : ExprOk .prim a ∧ ExprOk .prim b := by cases l <;> first | exact h | exact absurd h (by simp [ExprOk])
      have := iha .prim h.1 (by rintro a rfl; exact h.1)
      simp only [Expr.toks, ptoks_append]
      exact starts_append this
    | ne a b iha =>
      intro l h _
      have h : ExprOk .prim a ∧ ExprOk .prim b := by cases l <;> first | exact h | exact absurd h (by simp [ExprOk])
      have := iha .prim h.1 (by rintro a rfl; exact h.1)
      simp only [Expr.toks, ptoks_append]
      exact starts_append this
    | lt a b iha =>
      intro l h _
      have h : ExprOk .prim a ∧ ExprOk .prim b := by cases l <;> first | exact h | exact absurd h (by simp [ExprOk])
      have := iha .prim h.1 (by rintro a rfl; exact h.1)
      simp only [Expr.toks, ptoks_append]
      exact starts_append this
    | not a => intro l _ h; exact absurd rfl (h a)
  intro l h
  by_cases hn : ∃ a, e = .not a
  · obtain ⟨a, rfl⟩ := hn
    exact ⟨_, _, by simp only [Expr.toks, ptoks_cons, c_bang]; rfl, .inr ⟨rfl, a, rfl⟩⟩
  · obtain ⟨t, ts, h1, h2⟩ := go e l h (fun a ha => hn ⟨a, ha⟩)
    exact ⟨t, ts, h1, .inl h2⟩

/-- What can follow an expression. -/
def Stop : List PTok → Prop
  | .dot :: _ => False
  | .lbrack :: _ => False
  | .lparen :: _ => False
  | .eq :: _ => False
  | .ne :: _ => False
  | .lt :: _ => False
  | _ => True

/-- What can follow an operand. -/
def StopPost : List PTok → Prop
  | .dot :: _ => False
  | .lbrack :: _ => False
  | .lparen :: _ => False
  | _ => True

theorem Stop.post {ts : List PTok} (h : Stop ts) : StopPost ts := by
  unfold Stop at h
  unfold StopPost
  split at h <;> first | exact h.elim | simp_all

theorem post_stop (n : Nat) (e : Expr) (ts : List PTok) (h : StopPost ts) : post (n + 1) e ts = some (e, ts) := by
  unfold post
  unfold StopPost at h
  split <;> simp_all

theorem post_lparen (n : Nat) (e : Expr) (t : PTok) (ts : List PTok) (h : t ≠ .rparen) : post (n + 1) e (.lparen :: t :: ts) =
    match args n (t :: ts) with
      | some ([a], ts) => post n (.call1 e a) ts
      | some ([a, b], ts) => post n (.call2 e a b) ts
      | some ([a, b, c], ts) => post n (.call3 e a b c) ts
      | _ => none := by
  rw [post]
  · rfl
  · intro ts' h2
    cases h2
    exact h rfl

theorem expr_other (n : Nat) (ts : List PTok) (h : ∀ r, ts ≠ .bang :: r) : expr (n + 1) ts =
      match primary n ts with
      | some (a, .eq :: ts) =>
        match primary n ts with
        | some (b, ts) => some (.eq a b, ts)
        | none => none
      | some (a, .ne :: ts) =>
        match primary n ts with
        | some (b, ts) => some (.ne a b, ts)
        | none => none
      | some (a, .lt :: ts) =>
        match primary n ts with
        | some (b, ts) => some (.lt a b, ts)
        | none => none
      | some (a, ts) => some (a, ts)
      | none => none := by
  rw [expr]
  · rfl
  · exact h

/-- An expression is read whatever follows. -/
def Reads1 (e : Expr) : Prop := ∀ rest, Stop rest → ∀ n, 4 * e.toks.length + 2 ≤ n → expr n (ptoks e.toks ++ rest) = some (e, rest)

/-- An operand is read whatever follows. -/
def ReadsPrim (e : Expr) : Prop := ∀ rest, StopPost rest → ∀ n, 4 * e.toks.length + 1 ≤ n → primary n (ptoks e.toks ++ rest) = some (e, rest)

/-- After an operand the rest is read on. -/
def ReadsPost (e : Expr) : Prop := ∀ N r rest, (∀ n, N ≤ n → post n e rest = some r) → ∀ n, N + 4 * e.toks.length ≤ n → primary n (ptoks e.toks ++ rest) = some r

theorem ReadsPost.prim {e : Expr} (h : ReadsPost e) : ReadsPrim e := by
  intro rest hr n hn
  refine h 1 _ rest ?_ n (by omega)
  intro n hn
  obtain ⟨n, rfl⟩ : ∃ m, n = m + 1 := ⟨n - 1, by omega⟩
  exact post_stop n e rest hr

theorem ReadsPrim.full {e : Expr} (h : ReadsPrim e) (hs : ∃ t ts, ptoks e.toks = t :: ts ∧ Starts t) : Reads1 e := by
  intro rest hr n hn
  obtain ⟨n, rfl⟩ : ∃ m, n = m + 1 := ⟨n - 1, by omega⟩
  obtain ⟨t, ts, h1, h2⟩ := hs
  rw [expr_other]
  · rw [h rest hr.post n (by omega)]
    unfold Stop at hr
    split <;> simp_all
  · intro r h3
    rw [h1] at h3
    cases h3
    exact h2

theorem args1 {a : Expr} (h : Reads1 a) (rest : List PTok) (n : Nat) (hn : 4 * a.toks.length + 3 ≤ n) :
    args n (ptoks a.toks ++ .rparen :: rest) = some ([a], rest) := by
  obtain ⟨n, rfl⟩ : ∃ m, n = m + 1 := ⟨n - 1, by omega⟩
  rw [args, h (.rparen :: rest) trivial n (by omega)]

theorem args_cons {a : Expr} (h : Reads1 a) {as : List Expr} {ts rest : List PTok} {N : Nat} (ht : ∀ n, N ≤ n → args n ts = some (as, rest)) (n : Nat)
    (hn : 4 * a.toks.length + 3 ≤ n) (hN : N + 1 ≤ n) : args n (ptoks a.toks ++ .comma :: ts) = some (a :: as, rest) := by
  obtain ⟨n, rfl⟩ : ∃ m, n = m + 1 := ⟨n - 1, by omega⟩
  rw [args, h (.comma :: ts) trivial n (by omega)]
  simp only [ht n (by omega)]

theorem starts_not_rparen {e : Expr} {l : Level} (h : ExprOk l e) : ∃ t ts, ptoks e.toks = t :: ts ∧ t ≠ .rparen := by
  obtain ⟨t, ts, h1, h2⟩ := expr_starts e l h
  refine ⟨t, ts, h1, ?_⟩
  rintro rfl
  rcases h2 with h2 | ⟨h2, _⟩
  · exact h2
  · cases h2

theorem elements_read (fs : List (Ident × Ident)) (h : ∀ f ∈ fs, Named f.1 ∧ Named f.2) (rest : List PTok) :
    elements (ptoks (fs.flatMap fun f => [.word f.1, .op go!":", .word f.2, .op go!"(", .op go!")", .op go!","]) ++ .rbrace :: rest) = some (fs, rest) := by
  induction fs with
  | nil => rfl
  | cons f fs ih =>
    have hf := h f (List.mem_cons_self ..)
    simp only [List.flatMap_cons, ptoks_cons, classify_ident hf.1, classify_ident hf.2, c_colon, c_lparen, c_rparen, c_comma, List.cons_append, List.nil_append]
    rw [elements, ih fun g hg => h g (List.mem_cons_of_mem _ hg)]

/-- The three ways of reading. -/
theorem expr_reads (e : Expr) : (ExprOk .post e → ReadsPost e) ∧ (ExprOk .prim e → ReadsPrim e) ∧ (ExprOk .full e → Reads1 e) := by
  have wrap : ∀ e : Expr, (ExprOk .prim e → ExprOk .post e) → (ExprOk .full e → ExprOk .post e) → (ExprOk .post e → ReadsPost e) → (∀ a, e ≠ .not a) →
      (ExprOk .post e → ReadsPost e) ∧ (ExprOk .prim e → ReadsPrim e) ∧ (ExprOk .full e → Reads1 e) := by
    intro e h1 h2 h hn
    refine ⟨h, fun hp => (h (h1 hp)).prim, fun hf => (h (h2 hf)).prim.full ?_⟩
    obtain ⟨t, ts, h3, h4⟩ := expr_starts e _ hf
    rcases h4 with h4 | ⟨_, a, ha⟩
    · exact ⟨t, ts, h3, h4⟩
    · exact absurd ha (hn a)
  induction e with
  | var x =>
    refine wrap _ id id ?_ (by intro a h; cases h)
    intro h N r rest hp n hn
    simp only [Expr.toks, List.length_singleton] at hn
    obtain ⟨n, rfl⟩ : ∃ m, n = m + 1 := ⟨n - 1, by omega⟩
    simp only [Expr.toks, ptoks_cons, ptoks_nil, classify_ident h.1, List.cons_append, List.nil_append]
    unfold primary
    simp only [if_neg h.2]
    exact hp n (by omega)
  | num x =>
    refine wrap _ id id ?_ (by intro a h; cases h)
    intro h N r rest hp n hn
    simp only [Expr.toks, List.length_singleton] at hn
    obtain ⟨n, rfl⟩ : ∃ m, n = m + 1 := ⟨n - 1, by omega⟩
    simp only [Expr.toks, ptoks_cons, ptoks_nil, c_num, List.cons_append, List.nil_append]
    rw [primary]
    exact hp n (by omega)
  | str x =>
    refine wrap _ id id ?_ (by intro a h; cases h)
    intro h N r rest hp n hn
    simp only [Expr.toks, List.length_singleton] at hn
    obtain ⟨n, rfl⟩ : ∃ m, n = m + 1 := ⟨n - 1, by omega⟩
    simp only [Expr.toks, ptoks_cons, ptoks_nil, c_str, List.cons_append, List.nil_append]
    rw [primary]
    exact hp n (by omega)
  | sel e x ih =>
    refine wrap _ id id ?_ (by intro a h; cases h)
    intro h N r rest hp n hn
    simp only [Expr.toks, List.length_append, List.length_cons, List.length_nil] at hn
    simp only [Expr.toks, ptoks_append, ptoks_cons, ptoks_nil, c_dot, classify_ident h.2, List.append_assoc, List.cons_append, List.nil_append]
    refine ih.1 h.1 (N + 1) r _ ?_ n (by omega)
    intro n hn
    obtain ⟨n, rfl⟩ : ∃ m, n = m + 1 := ⟨n - 1, by omega⟩
    rw [post]
    exact hp n (by omega)
  | index e i ihe ihi =>
    refine wrap _ id id ?_ (by intro a h; cases h)
    intro h N r rest hp n hn
    simp only [Expr.toks, List.length_append, List.length_cons, List.length_nil] at hn
    simp only [Expr.toks, ptoks_append, ptoks_cons, ptoks_nil, c_lbrack, c_rbrack, List.append_assoc, List.cons_append, List.nil_append]
    refine ihe.1 h.1 (N + 4 * i.toks.length + 3) r _ ?_ n (by omega)
    intro n hn
    obtain ⟨n, rfl⟩ : ∃ m, n = m + 1 := ⟨n - 1, by omega⟩
    rw [post, ihi.2.2 h.2 (.rbrack :: rest) trivial n (by omega)]
    exact hp n (by omega)
  | call0 e ih =>
    refine wrap _ id id ?_ (by intro a h; cases h)
    intro h N r rest hp n hn
    simp only [Expr.toks, List.length_append, List.length_cons, List.length_nil] at hn
    simp only [Expr.toks, ptoks_append, ptoks_cons, ptoks_nil, c_lparen, c_rparen, List.append_assoc, List.cons_append, List.nil_append]
    refine ih.1 h (N + 1) r _ ?_ n (by omega)
    intro n hn
    obtain ⟨n, rfl⟩ : ∃ m, n = m + 1 := ⟨n - 1, by omega⟩
    rw [post]
    exact hp n (by omega)
  | call1 e a ihe iha =>
    refine wrap _ id id ?_ (by intro a h; cases h)
    intro h N r rest hp n hn
    simp only [Expr.toks, List.length_append, List.length_cons, List.length_nil] at hn
    simp only [Expr.toks, ptoks_append, ptoks_cons, ptoks_nil, c_lparen, c_rparen, List.append_assoc, List.cons_append, List.nil_append]
    refine ihe.1 h.1 (N + 4 * a.toks.length + 4) r _ ?_ n (by omega)
    intro n hn
    obtain ⟨n, rfl⟩ : ∃ m, n = m + 1 := ⟨n - 1, by omega⟩
    have ha := args1 (iha.2.2 h.2) rest n (by omega)
    obtain ⟨t, ts, h1, h2⟩ := starts_not_rparen h.2
    rw [h1, List.cons_append] at ha ⊢
    rw [post_lparen _ _ _ _ h2, ha]
    exact hp n (by omega)
  | call2 e a b ihe iha ihb =>
    refine wrap _ id id ?_ (by intro a h; cases h)
    intro h N r rest hp n hn
    simp only [Expr.toks, List.length_append, List.length_cons, List.length_nil] at hn
    simp only [Expr.toks, ptoks_append, ptoks_cons, ptoks_nil, c_lparen, c_rparen, c_comma, List.append_assoc, List.cons_append, List.nil_append]
    refine ihe.1 h.1 (N + 4 * a.toks.length + 4 * b.toks.length + 8) r _ ?_ n (by omega)
    intro n hn
    obtain ⟨n, rfl⟩ : ∃ m, n = m + 1 := ⟨n - 1, by omega⟩
    have ha := args_cons (iha.2.2 h.2.1) (fun n hn => args1 (ihb.2.2 h.2.2) rest n hn) n (by omega) (by omega)
    obtain ⟨t, ts, h1, h2⟩ := starts_not_rparen h.2.1
    rw [h1, List.cons_append] at ha ⊢
    rw [post_lparen _ _ _ _ h2, ha]
    exact hp n (by omega)
  | call3 e a b c ihe iha ihb ihc =>
    refine wrap _ id id ?_ (by intro a h; cases h)
    intro h N r rest hp n hn
    simp only [Expr.toks, List.length_append, List.length_cons, List.length_nil] at hn
    simp only [Expr.toks, ptoks_append, ptoks_cons, ptoks_nil, c_lparen, c_rparen, c_comma, List.append_assoc, List.cons_append, List.nil_append]
    refine ihe.1 h.1 (N + 4 * a.toks.length + 4 * b.toks.length + 4 * c.toks.length + 12) r _ ?_ n (by omega)
    intro n hn
    obtain ⟨n, rfl⟩ : ∃ m, n = m + 1 := ⟨n - 1, by omega⟩
    have hb : ∀ n, 4 * b.toks.length + 4 * c.toks.length + 7 ≤ n → args n (ptoks b.toks ++ .comma :: (ptoks c.toks ++ .rparen :: rest)) = some ([b, c], rest) :=
      fun n hn => args_cons (ihb.2.2 h.2.2.1) (fun n hn => args1 (ihc.2.2 h.2.2.2) rest n hn) n (by omega) (by omega)
    have ha := args_cons (iha.2.2 h.2.1) hb n (by omega) (by omega)
    obtain ⟨t, ts, h1, h2⟩ := starts_not_rparen h.2.1
    rw [h1, List.cons_append] at ha ⊢
    rw [post_lparen _ _ _ _ h2, ha]
    exact hp n (by omega)
  | make t a ih =>
    refine wrap _ id id ?_ (by intro a h; cases h)
    intro h N r rest hp n hn
    simp only [Expr.toks, List.length_append, List.length_cons, List.length_nil] at hn
    obtain ⟨n, rfl⟩ : ∃ m, n = m + 1 := ⟨n - 1, by omega⟩
    simp only [Expr.toks, ptoks_append, ptoks_cons, ptoks_nil, c_lparen, c_rparen, c_comma, c_make, List.append_assoc, List.cons_append, List.nil_append]
    rw [primary, if_pos rfl]
    simp only [type_reads t h.1 (.comma :: (ptoks a.toks ++ .rparen :: rest)) (by intro ts h; cases h) n (by omega),
      ih.2.2 h.2 (.rparen :: rest) trivial n (by omega)]
    exact hp n (by omega)
  | new t fs =>
    have hp : (Named t ∧ ∀ f ∈ fs, Named f.1 ∧ Named f.2) → ReadsPrim (.new t fs) := by
      intro h rest hr n hn
      obtain ⟨n, rfl⟩ : ∃ m, n = m + 1 := ⟨n - 1, by omega⟩
      simp only [Expr.toks, ptoks_append, ptoks_cons, ptoks_nil, c_amp, c_lbrace, c_rbrace, classify_ident h.1, List.cons_append, List.append_assoc, List.nil_append]
      rw [primary, elements_read fs h.2]
    exact ⟨fun h => h.elim, hp, fun h => (hp h).full ⟨.amp, _, by simp only [Expr.toks, ptoks_cons, c_amp, List.cons_append]; rfl, trivial⟩⟩
  | eq a b iha ihb =>
    refine ⟨fun h => h.elim, fun h => h.elim, ?_⟩
    intro h rest hr n hn
    simp only [Expr.toks, List.length_append, List.length_cons] at hn
    obtain ⟨n, rfl⟩ : ∃ m, n = m + 1 := ⟨n - 1, by omega⟩
    obtain ⟨t, ts, h1, h2⟩ := expr_starts a _ h.1
    have h2 : t ≠ .bang := by
      rintro rfl
      rcases h2 with h2 | ⟨_, x, rfl⟩
      · exact h2
      · exact h.1
    simp only [Expr.toks, ptoks_append, ptoks_cons, c_eq, List.append_assoc, List.cons_append]
    rw [expr_other, iha.2.1 h.1 (.eq :: (ptoks b.toks ++ rest)) trivial n (by omega)]
    · simp only [ihb.2.1 h.2 rest hr.post n (by omega)]
    · rw [h1]; intro r h3; cases h3; exact h2 rfl
  | ne a b iha ihb =>
    refine ⟨fun h => h.elim, fun h => h.elim, ?_⟩
    intro h rest hr n hn
    simp only [Expr.toks, List.length_append, List.length_cons] at hn
    obtain ⟨n, rfl⟩ : ∃ m, n = m + 1 := ⟨n - 1, by omega⟩
    obtain ⟨t, ts, h1, h2⟩ := expr_starts a _ h.1
    have h2 : t ≠ .bang := by
      rintro rfl
      rcases h2 with h2 | ⟨_, x, rfl⟩
      · exact h2
      · exact h.1
    simp only [Expr.toks, ptoks_append, ptoks_cons, c_ne, List.append_assoc, List.cons_append]
    rw [expr_other, iha.2.1 h.1 (.ne :: (ptoks b.toks ++ rest)) trivial n (by omega)]
    · simp only [ihb.2.1 h.2 rest hr.post n (by omega)]
    · rw [h1]; intro r h3; cases h3; exact h2 rfl
  | lt a b iha ihb =>
    refine ⟨fun h => h.elim, fun h => h.elim, ?_⟩
    intro h rest hr n hn
    simp only [Expr.toks, List.length_append, List.length_cons] at hn
    obtain ⟨n, rfl⟩ : ∃ m, n = m + 1 := ⟨n - 1, by omega⟩
    obtain ⟨t, ts, h1, h2⟩ := expr_starts a _ h.1
    have h2 : t ≠ .bang := by
      rintro rfl
      rcases h2 with h2 | ⟨_, x, rfl⟩
      · exact h2
      · exact h.1
    simp only [Expr.toks, ptoks_append, ptoks_cons, c_lt, List.append_assoc, List.cons_append]
    rw [expr_other, iha.2.1 h.1 (.lt :: (ptoks b.toks ++ rest)) trivial n (by omega)]
    · simp only [ihb.2.1 h.2 rest hr.post n (by omega)]
    · rw [h1]; intro r h3; cases h3; exact h2 rfl
  | not a ih =>
    refine ⟨fun h => h.elim, fun h => h.elim, ?_⟩
    intro h rest hr n hn
    simp only [Expr.toks, List.length_cons] at hn
    obtain ⟨n, rfl⟩ : ∃ m, n = m + 1 := ⟨n - 1, by omega⟩
    simp only [Expr.toks, ptoks_cons, c_bang, List.cons_append]
    rw [expr]
    simp only [ih.2.1 h rest hr.post n (by omega)]

theorem full_reads {e : Expr} (h : ExprOk .full e) : Reads1 e := (expr_reads e).2.2 h

/-! ## Statements -/

theorem stmt_simple (n : Nat) (ts : List PTok) (t : PTok) (r : List PTok) (h : ts = t :: r) (hs : Starts t ∨ t = .bang) : stmt (n + 1) ts = simple n ts := by
  subst h
  unfold Starts at hs
  rw [stmt] <;> (intros; simp_all)

theorem simple_expr {e : Expr} (h : ExprOk .full e) {rest : List PTok} (hr : Stop rest) (h1 : ∀ r, rest ≠ .assign :: r) (h2 : ∀ r, rest ≠ .comma :: r)
    (h3 : ∀ r, rest ≠ .define :: r) (n : Nat) (hn : 4 * e.toks.length + 3 ≤ n) : simple n (ptoks e.toks ++ rest) = some (.expr e, rest) := by
  obtain ⟨n, rfl⟩ : ∃ m, n = m + 1 := ⟨n - 1, by omega⟩
  rw [simple, full_reads h rest hr n (by omega)]
  split <;> simp_all

/-- What can follow a statement. -/
def StopStmt : List PTok → Prop
  | .semi :: _ => True
  | .rbrace :: _ => True
  | _ => False

theorem StopStmt.stop {ts : List PTok} (h : StopStmt ts) : Stop ts := by
  unfold StopStmt at h
  split at h <;> first | exact h.elim | trivial

theorem StopStmt.cases {ts : List PTok} (h : StopStmt ts) : (∃ r, ts = .semi :: r) ∨ ∃ r, ts = .rbrace :: r := by
  unfold StopStmt at h
  split at h
  · exact .inl ⟨_, rfl⟩
  · exact .inr ⟨_, rfl⟩
  · exact h.elim

theorem full_starts {e : Expr} (h : ExprOk .full e) (rest : List PTok) : ∃ t r, ptoks e.toks ++ rest = t :: r ∧ (Starts t ∨ t = .bang) := by
  obtain ⟨t, ts, h1, h2⟩ := expr_starts e _ h
  refine ⟨t, ts ++ rest, by rw [h1]; rfl, ?_⟩
  rcases h2 with h2 | ⟨h2, _⟩
  · exact .inl h2
  · exact .inr h2

theorem block_stmt (n : Nat) (ts : List PTok) (h : ∀ r, ts ≠ .rbrace :: r) : block (n + 1) ts =
      match stmt n ts with
      | some (s, .semi :: ts) =>
        match block n ts with
        | some (rest, tight, ts) => some (.seq s rest, tight, ts)
        | none => none
      | some (s, .rbrace :: ts) => some (.seq s .skip, true, ts)
      | _ => none := by
  rw [block]
  · rfl
  · exact h

/-- A statement does not begin with a brace. -/
theorem stmt_starts {s : Stmt} (h : StmtOk true s) (tight : Bool) (rest : List PTok) : ∀ r, ptoks (s.toks tight) ++ rest ≠ .rbrace :: r := by
  have he : ∀ {e : Expr} (_ : ExprOk .full e) (r' r : List PTok), ptoks e.toks ++ r' ≠ .rbrace :: r := by
    intro e h r' r h2
    obtain ⟨t, r'', h3, h4⟩ := full_starts h r'
    rw [h3] at h2
    cases h2
    rcases h4 with h4 | h4
    · exact h4
    · cases h4
  intro r
  cases s with
  | skip => cases h
  | seq s rest => cases h.1
  | expr e => exact he h.2 _ _
  | assign l e => simp only [Stmt.toks, ptoks_append, List.append_assoc]; exact he h.2.1 _ _
  | assign2 l m e => simp only [Stmt.toks, ptoks_append, List.append_assoc]; exact he h.2.1 _ _
  | define n e => simp only [Stmt.toks, ptoks_cons, classify_ident h.2.1.1, List.cons_append]; intro h; cases h
  | defer e => simp [Stmt.toks]
  | define2 l m e => simp only [Stmt.toks, ptoks_cons, classify_ident h.2.1.1, List.cons_append]; intro h; cases h
  | var x t => simp [Stmt.toks]
  | ret => simp [Stmt.toks]
  | ret1 e => simp [Stmt.toks]
  | if1 c t => simp [Stmt.toks]
  | ite c t f b => simp [Stmt.toks]
  | for3 i e c b => simp [Stmt.toks]
  | range k v e b => simp [Stmt.toks]

/-- A statement is read whatever follows. -/
def ReadsStmt (s : Stmt) : Prop := ∀ tight rest, StopStmt rest → ∀ n, 4 * (s.toks tight).length + 8 ≤ n → stmt n (ptoks (s.toks tight) ++ rest) = some (s, rest)

/-- Statements and the closing brace are read whatever follows. -/
def ReadsBlock (s : Stmt) : Prop := ∀ tight, (tight = true → s ≠ .skip) → ∀ rest n, 4 * (s.toks tight).length + 12 ≤ n →
  block n (ptoks (s.toks tight) ++ .rbrace :: rest) = some (s, tight, rest)

theorem ret_expr {e : Expr} (h : ExprOk .full e) (rest : List PTok) (n : Nat) : stmt (n + 1) (.kreturn :: (ptoks e.toks ++ rest)) =
    match expr n (ptoks e.toks ++ rest) with
    | some (e, ts) => some (.ret1 e, ts)
    | none => none := by
  obtain ⟨t, r, h1, h2⟩ := full_starts h rest
  rw [h1, stmt]
  · rfl
  · intro ts h; cases h; rcases h2 with h2 | h2 <;> cases h2
  · intro ts h; cases h; rcases h2 with h2 | h2 <;> cases h2

theorem stmt_reads (s : Stmt) : (StmtOk true s → ReadsStmt s) ∧ (StmtOk false s → ReadsBlock s) := by
  induction s with
  | skip =>
    refine ⟨fun h => absurd h (by simp [StmtOk]), fun _ => ?_⟩
    intro tight ht rest n hn
    obtain ⟨n, rfl⟩ : ∃ m, n = m + 1 := ⟨n - 1, by omega⟩
    cases tight with
    | true => exact absurd rfl (ht rfl)
    | false => rfl
  | seq s r ihs ihr =>
    refine ⟨fun h => absurd h.1 (by simp), fun h => ?_⟩
    intro tight ht rest n hn
    obtain ⟨n, rfl⟩ : ∃ m, n = m + 1 := ⟨n - 1, by omega⟩
    by_cases hl : tight = true ∧ r = .skip
    · obtain ⟨rfl, rfl⟩ := hl
      have he : (Stmt.seq s .skip).toks true = s.toks true := by simp [Stmt.toks]
      rw [he] at hn ⊢
      rw [block_stmt _ _ (stmt_starts h.2.1 _ _), ihs.1 h.2.1 true (.rbrace :: rest) trivial n (by omega)]
    · have he : (Stmt.seq s r).toks tight = s.toks tight ++ semi :: r.toks tight := by simp [Stmt.toks, hl]
      rw [he] at hn ⊢
      simp only [List.length_append, List.length_cons] at hn
      simp only [ptoks_append, ptoks_cons, c_semi, List.append_assoc, List.cons_append]
      rw [block_stmt _ _ (stmt_starts h.2.1 _ _), ihs.1 h.2.1 tight (.semi :: (ptoks (r.toks tight) ++ .rbrace :: rest)) trivial n (by omega)]
      simp only [ihr.2 h.2.2 tight (fun h1 h2 => hl ⟨h1, h2⟩) rest n (by omega)]
  | expr e =>
    refine ⟨fun h => ?_, fun h => absurd h.1 (by simp)⟩
    intro tight rest hr n hn
    simp only [Stmt.toks] at hn ⊢
    obtain ⟨n, rfl⟩ : ∃ m, n = m + 1 := ⟨n - 1, by omega⟩
    obtain ⟨t, r, h1, h2⟩ := full_starts h.2 rest
    rw [stmt_simple n _ t r h1 h2]
    refine simple_expr h.2 hr.stop ?_ ?_ ?_ n (by omega) <;> (rintro x rfl; exact hr)
  | assign l e =>
    refine ⟨fun h => ?_, fun h => absurd h.1 (by simp)⟩
    intro tight rest hr n hn
    simp only [Stmt.toks, List.length_append, List.length_cons] at hn
    simp only [Stmt.toks, ptoks_append, ptoks_cons, c_assign, List.append_assoc, List.cons_append]
    obtain ⟨n, rfl⟩ : ∃ m, n = m + 2 := ⟨n - 2, by omega⟩
    obtain ⟨t, r, h1, h2⟩ := full_starts h.2.1 (.assign :: (ptoks e.toks ++ rest))
    rw [stmt_simple _ _ t r h1 h2, simple]
    simp only [full_reads h.2.1 (.assign :: (ptoks e.toks ++ rest)) trivial n (by omega), full_reads h.2.2 rest hr.stop n (by omega)]
  | assign2 l m e =>
    refine ⟨fun h => ?_, fun h => absurd h.1 (by simp)⟩
    intro tight rest hr n hn
    simp only [Stmt.toks, List.length_append, List.length_cons] at hn
    simp only [Stmt.toks, ptoks_append, ptoks_cons, c_assign, c_comma, List.append_assoc, List.cons_append]
    obtain ⟨n, rfl⟩ : ∃ m, n = m + 2 := ⟨n - 2, by omega⟩
    obtain ⟨t, r, h1, h2⟩ := full_starts h.2.1 (.comma :: (ptoks m.toks ++ .assign :: (ptoks e.toks ++ rest)))
    rw [stmt_simple _ _ t r h1 h2, simple]
    simp only [full_reads h.2.1 (.comma :: (ptoks m.toks ++ .assign :: (ptoks e.toks ++ rest))) trivial n (by omega),
      full_reads h.2.2.1 (.assign :: (ptoks e.toks ++ rest)) trivial n (by omega), full_reads h.2.2.2 rest hr.stop n (by omega)]
  | define l e =>
    refine ⟨fun h => ?_, fun h => absurd h.1 (by simp)⟩
    intro tight rest hr n hn
    simp only [Stmt.toks, List.length_cons] at hn
    have e1 : ptoks ((Stmt.define l e).toks tight) ++ rest = ptoks (Expr.var l).toks ++ .define :: (ptoks e.toks ++ rest) := by
      simp [Stmt.toks, Expr.toks]
    rw [e1]
    obtain ⟨n, rfl⟩ : ∃ m, n = m + 2 := ⟨n - 2, by omega⟩
    obtain ⟨t, r, h1, h2⟩ := full_starts h.2.1 (.define :: (ptoks e.toks ++ rest))
    rw [stmt_simple _ _ t r h1 h2, simple]
    simp only [full_reads h.2.1 (.define :: (ptoks e.toks ++ rest)) trivial n (by simp [Expr.toks]; omega), full_reads h.2.2 rest hr.stop n (by omega)]
  | defer e =>
    refine ⟨fun h => ?_, fun h => absurd h.1 (by simp)⟩
    intro tight rest hr n hn
    simp only [Stmt.toks, List.length_cons] at hn
    obtain ⟨n, rfl⟩ : ∃ m, n = m + 1 := ⟨n - 1, by omega⟩
    simp only [Stmt.toks, ptoks_cons, c_defer, List.cons_append]
    unfold stmt
    simp only [full_reads h.2 rest hr.stop n (by omega)]
  | define2 l m e =>
    refine ⟨fun h => ?_, fun h => absurd h.1 (by simp)⟩
    intro tight rest hr n hn
    simp only [Stmt.toks, List.length_cons] at hn
    have e1 : ptoks ((Stmt.define2 l m e).toks tight) ++ rest = ptoks (Expr.var l).toks ++ .comma :: (ptoks (Expr.var m).toks ++ .define :: (ptoks e.toks ++ rest)) := by
      simp [Stmt.toks, Expr.toks]
    rw [e1]
    obtain ⟨n, rfl⟩ : ∃ m, n = m + 2 := ⟨n - 2, by omega⟩
    obtain ⟨t, r, h1, h2⟩ := full_starts h.2.1 (.comma :: (ptoks (Expr.var m).toks ++ .define :: (ptoks e.toks ++ rest)))
    rw [stmt_simple _ _ t r h1 h2, simple]
    simp only [full_reads h.2.1 (.comma :: (ptoks (Expr.var m).toks ++ .define :: (ptoks e.toks ++ rest))) trivial n (by simp [Expr.toks]; omega),
      full_reads h.2.2.1 (.define :: (ptoks e.toks ++ rest)) trivial n (by simp [Expr.toks]; omega), full_reads h.2.2.2 rest hr.stop n (by omega)]
  | var x t =>
    refine ⟨fun h => ?_, fun h => absurd h.1 (by simp)⟩
    intro tight rest hr n hn
    simp only [Stmt.toks, List.length_cons] at hn
    obtain ⟨n, rfl⟩ : ∃ m, n = m + 1 := ⟨n - 1, by omega⟩
    simp only [Stmt.toks, ptoks_cons, c_var, classify_ident h.2.1, List.cons_append]
    unfold stmt
    simp only [type_reads t h.2.2 rest (by rintro ts rfl; exact hr) n (by omega)]
  | ret =>
    refine ⟨fun h => ?_, fun h => absurd h (by simp [StmtOk])⟩
    intro tight rest hr n hn
    obtain ⟨n, rfl⟩ : ∃ m, n = m + 1 := ⟨n - 1, by omega⟩
    simp only [Stmt.toks, ptoks_cons, ptoks_nil, c_return, List.cons_append, List.nil_append]
    rcases hr.cases with ⟨r, rfl⟩ | ⟨r, rfl⟩ <;> rfl
  | ret1 e =>
    refine ⟨fun h => ?_, fun h => absurd h.1 (by simp)⟩
    intro tight rest hr n hn
    simp only [Stmt.toks, List.length_cons] at hn
    obtain ⟨n, rfl⟩ : ∃ m, n = m + 1 := ⟨n - 1, by omega⟩
    simp only [Stmt.toks, ptoks_cons, c_return, List.cons_append]
    rw [ret_expr h.2]
    simp only [full_reads h.2 rest hr.stop n (by omega)]
  | if1 c t iht =>
    refine ⟨fun h => ?_, fun h => absurd h.1 (by simp)⟩
    intro tight rest hr n hn
    simp only [Stmt.toks, List.length_cons, List.length_append] at hn
    obtain ⟨n, rfl⟩ : ∃ m, n = m + 1 := ⟨n - 1, by omega⟩
    simp only [Stmt.toks, ptoks_append, ptoks_cons, ptoks_nil, c_if, c_lbrace, c_rbrace, List.append_assoc, List.cons_append, List.nil_append]
    unfold stmt
    simp only [full_reads h.2.1 (.lbrace :: (ptoks (t.toks false) ++ .rbrace :: rest)) trivial n (by omega),
      iht.2 h.2.2 false (by simp) rest n (by omega)]
    rcases hr.cases with ⟨r, rfl⟩ | ⟨r, rfl⟩ <;> rfl
  | ite c t f b iht ihf =>
    refine ⟨fun h => ?_, fun h => absurd h.1 (by simp)⟩
    intro tight rest hr n hn
    simp only [Stmt.toks, List.length_cons, List.length_append] at hn
    obtain ⟨n, rfl⟩ : ∃ m, n = m + 1 := ⟨n - 1, by omega⟩
    simp only [Stmt.toks, ptoks_append, ptoks_cons, ptoks_nil, c_if, c_else, c_lbrace, c_rbrace, List.append_assoc, List.cons_append, List.nil_append]
    unfold stmt
    simp only [full_reads h.2.1 (.lbrace :: (ptoks (t.toks false) ++ .rbrace :: .kelse :: .lbrace :: (ptoks (f.toks b) ++ .rbrace :: rest))) trivial n (by omega),
      iht.2 h.2.2.1 false (by simp) (.kelse :: .lbrace :: (ptoks (f.toks b) ++ .rbrace :: rest)) n (by omega),
      ihf.2 h.2.2.2.1 b h.2.2.2.2 rest n (by omega)]
  | for3 i e c b ih =>
    refine ⟨fun h => ?_, fun h => absurd h.1 (by simp)⟩
    intro tight rest hr n hn
    simp only [Stmt.toks, List.length_cons, List.length_append] at hn
    obtain ⟨n, rfl⟩ : ∃ m, n = m + 1 := ⟨n - 1, by omega⟩
    simp only [Stmt.toks, ptoks_append, ptoks_cons, ptoks_nil, c_for, c_define, c_semi, c_inc, classify_ident h.2.1, c_lbrace, c_rbrace, List.append_assoc, List.cons_append, List.nil_append]
    unfold stmt
    simp only [full_reads h.2.2.1 (.semi :: (ptoks c.toks ++ .semi :: .ident i :: .inc :: .lbrace :: (ptoks (b.toks false) ++ .rbrace :: rest))) trivial n (by omega),
      full_reads h.2.2.2.1 (.semi :: .ident i :: .inc :: .lbrace :: (ptoks (b.toks false) ++ .rbrace :: rest)) trivial n (by omega),
      ih.2 h.2.2.2.2 false (by simp) rest n (by omega)]
    simp
  | range k v e b ih =>
    refine ⟨fun h => ?_, fun h => absurd h.1 (by simp)⟩
    intro tight rest hr n hn
    simp only [Stmt.toks, List.length_cons, List.length_append] at hn
    obtain ⟨n, rfl⟩ : ∃ m, n = m + 1 := ⟨n - 1, by omega⟩
    simp only [Stmt.toks, ptoks_append, ptoks_cons, ptoks_nil, c_for, c_define, c_range, c_comma, classify_ident h.2.1, classify_ident h.2.2.1, c_lbrace, c_rbrace,
      List.append_assoc, List.cons_append, List.nil_append]
    unfold stmt
    simp only [full_reads h.2.2.2.1 (.lbrace :: (ptoks (b.toks false) ++ .rbrace :: rest)) trivial n (by omega),
      ih.2 h.2.2.2.2 false (by simp) rest n (by omega)]

/-! ## Declarations -/

theorem paths_read (ps : List Frag) (rest : List PTok) : paths (ptoks (ps.flatMap fun p => [.str p, semi]) ++ .rparen :: rest) = some (ps, rest) := by
  induction ps with
  | nil => rfl
  | cons p ps ih =>
    simp only [List.flatMap_cons, ptoks_cons, c_str, c_semi, List.cons_append, List.nil_append]
    rw [paths, ih]

theorem fields_read (fs : List (Ident × Ty)) (h : ∀ f ∈ fs, Named f.1 ∧ Ty.Ok f.2) (rest : List PTok) : ∀ n,
    (fs.flatMap fun f => .word f.1 :: f.2.toks ++ [semi]).length + 1 ≤ n →
    fields n (ptoks (fs.flatMap fun f => .word f.1 :: f.2.toks ++ [semi]) ++ .rbrace :: rest) = some (fs, rest) := by
  induction fs with
  | nil =>
    intro n hn
    obtain ⟨n, rfl⟩ : ∃ m, n = m + 1 := ⟨n - 1, by omega⟩
    rfl
  | cons f fs ih =>
    intro n hn
    obtain ⟨n, rfl⟩ : ∃ m, n = m + 1 := ⟨n - 1, by omega⟩
    have hf := h f (List.mem_cons_self ..)
    simp only [List.flatMap_cons, List.length_append, List.length_cons, List.length_nil] at hn
    simp only [List.flatMap_cons, ptoks_append, ptoks_cons, classify_ident hf.1, c_semi, List.append_assoc, List.cons_append, List.nil_append]
    unfold fields
    have h1 := type_reads f.2 hf.2 (.semi :: (ptoks (fs.flatMap fun f => .word f.1 :: f.2.toks ++ [semi]) ++ .rbrace :: rest)) (by intro ts h; cases h) n (by omega)
    have h2 := ih (fun g hg => h g (List.mem_cons_of_mem _ hg)) n (by simp only [List.cons_append] at hn ⊢; omega)
    simp only [List.cons_append] at h1 h2
    simp only [h1, h2]

theorem defs_read (ds : List (Ident × Expr)) (h : ∀ d ∈ ds, Named d.1 ∧ ExprOk .full d.2) (rest : List PTok) : ∀ n,
    4 * (ds.flatMap fun d => .word d.1 :: .op go!"=" :: d.2.toks ++ [semi]).length + 1 ≤ n →
    defs n (ptoks (ds.flatMap fun d => .word d.1 :: .op go!"=" :: d.2.toks ++ [semi]) ++ .rparen :: rest) = some (ds, rest) := by
  induction ds with
  | nil =>
    intro n hn
    obtain ⟨n, rfl⟩ : ∃ m, n = m + 1 := ⟨n - 1, by omega⟩
    rfl
  | cons f fs ih =>
    intro n hn
    obtain ⟨n, rfl⟩ : ∃ m, n = m + 1 := ⟨n - 1, by omega⟩
    have hf := h f (List.mem_cons_self ..)
    simp only [List.flatMap_cons, List.length_append, List.length_cons, List.length_nil] at hn
    simp only [List.flatMap_cons, ptoks_append, ptoks_cons, classify_ident hf.1, c_semi, c_assign, List.append_assoc, List.cons_append, List.nil_append]
    unfold defs
    have h1 := full_reads hf.2 (.semi :: (ptoks (fs.flatMap fun d => .word d.1 :: .op go!"=" :: d.2.toks ++ [semi]) ++ .rparen :: rest)) trivial n (by omega)
    have h2 := ih (fun g hg => h g (List.mem_cons_of_mem _ hg)) n (by simp only [List.cons_append] at hn ⊢; omega)
    simp only [List.cons_append] at h1 h2
    simp only [h1, h2]

theorem params_read (ps : List (Ident × Ty)) (h : ∀ f ∈ ps, Named f.1 ∧ Ty.Ok f.2) (rest : List PTok) : ∀ n, (GoAst.params ps).length + 1 ≤ n →
    params n (ptoks (GoAst.params ps) ++ .rparen :: rest) = some (ps, rest) := by
  induction ps with
  | nil =>
    intro n hn
    obtain ⟨n, rfl⟩ : ∃ m, n = m + 1 := ⟨n - 1, by omega⟩
    rfl
  | cons p ps ih =>
    intro n hn
    obtain ⟨n, rfl⟩ : ∃ m, n = m + 1 := ⟨n - 1, by omega⟩
    have hp := h p (List.mem_cons_self ..)
    cases ps with
    | nil =>
      simp only [GoAst.params, List.length_cons] at hn
      simp only [GoAst.params, ptoks_cons, classify_ident hp.1, List.cons_append]
      unfold params
      simp only [type_reads p.2 hp.2 (.rparen :: rest) (by intro ts h; cases h) n (by omega)]
    | cons q qs =>
      have hq := h q (List.mem_cons_of_mem _ (List.mem_cons_self ..))
      simp only [GoAst.params, List.length_cons, List.length_append] at hn
      have h2 := ih (fun g hg => h g (List.mem_cons_of_mem _ hg)) n (by omega)
      obtain ⟨r, hr⟩ : ∃ r, ptoks (GoAst.params (q :: qs)) ++ .rparen :: rest = .ident q.1 :: r := by
        cases qs with
        | nil => exact ⟨_, by simp only [GoAst.params, ptoks_cons, classify_ident hq.1, List.cons_append]; rfl⟩
        | cons _ _ => exact ⟨_, by simp only [GoAst.params, ptoks_cons, ptoks_append, classify_ident hq.1, List.cons_append]; rfl⟩
      simp only [GoAst.params, ptoks_cons, ptoks_append, c_comma, classify_ident hp.1, List.cons_append, List.append_assoc]
      unfold params
      rw [hr] at h2 ⊢
      simp only [type_reads p.2 hp.2 (.comma :: .ident q.1 :: r) (by intro ts h; cases h) n (by omega), h2]

theorem type_starts {t : Ty} (h : Ty.Ok t) (rest : List PTok) : (∀ r, ptoks t.toks ++ rest ≠ .lbrace :: r) ∧ ∀ r, ptoks t.toks ++ rest ≠ .kstruct :: r := by
  cases t with
  | name n => simp [Ty.toks, classify_ident h]
  | qual p n => simp [Ty.toks, classify_ident h.1]
  | slice t => simp [Ty.toks]
  | ptr t => simp [Ty.toks]
  | map k v => simp [Ty.toks]

/-- The tokens of a result. -/
def resToks : Option Ty → List Tok
  | none => []
  | some t => t.toks

theorem result_reads (r : Option Ty) (h : ∀ t, r = some t → Ty.Ok t) (rest : List PTok) (n : Nat) (hn : (resToks r).length ≤ n) :
    result n (ptoks (resToks r) ++ .lbrace :: rest) = some (r, rest) := by
  cases r with
  | none => rfl
  | some t =>
    have ht := h t rfl
    simp only [resToks] at hn ⊢
    rw [result]
    · simp only [type_reads t ht (.lbrace :: rest) (by intro ts h; cases h) n hn]
    · exact (type_starts ht _).1

theorem func_reads {recv : Option (Ident × Ty)} {name : Ident} {ps : List (Ident × Ty)} {r : Option Ty} {body : Stmt}
    (h : DeclOk (.func recv name ps r body)) (rest : List PTok) (n : Nat)
    (hn : 4 * ((GoAst.params ps).length + (resToks r).length + (body.toks false).length) + 12 ≤ n) :
    func n recv (.ident name :: .lparen :: (ptoks (GoAst.params ps) ++ .rparen :: (ptoks (resToks r) ++ .lbrace ::
      (ptoks (body.toks false) ++ .rbrace :: .semi :: rest)))) = some (.func recv name ps r body, rest) := by
  have h1 := params_read ps h.2.2.1 (ptoks (resToks r) ++ .lbrace :: (ptoks (body.toks false) ++ .rbrace :: .semi :: rest)) n (by omega)
  have h2 := result_reads r h.2.2.2.1 (ptoks (body.toks false) ++ .rbrace :: .semi :: rest) n (by omega)
  have h3 := (stmt_reads body).2 h.2.2.2.2 false (by simp) (.semi :: rest) n (by omega)
  unfold func
  simp only [h1, h2, h3]

theorem func_toks (recv : Option (Ident × Ty)) (name : Ident) (ps : List (Ident × Ty)) (r : Option Ty) (body : Stmt) :
    (Decl.func recv name ps r body).toks = .word go!"func" :: (match recv with | none => [] | some r => .op go!"(" :: .word r.1 :: r.2.toks ++ [.op go!")"]) ++
      .word name :: .op go!"(" :: GoAst.params ps ++ .op go!")" :: resToks r ++ .op go!"{" :: body.toks false ++ [.op go!"}", semi] := by
  cases r <;> rfl

theorem decl_reads (d : Decl) (h : DeclOk d) (rest : List PTok) (n : Nat) (hn : 4 * d.toks.length + 12 ≤ n) : decl n (ptoks d.toks ++ rest) = some (d, rest) := by
  cases d with
  | package p => simp only [Decl.toks, ptoks_cons, ptoks_nil, c_package, c_semi, classify_ident h, List.cons_append, List.nil_append]; rfl
  | imports ps =>
    simp only [Decl.toks, ptoks_cons, ptoks_append, ptoks_nil, c_import, c_lparen, c_rparen, c_semi, List.cons_append, List.append_assoc, List.nil_append]
    unfold decl
    simp only [paths_read]
  | type x t =>
    simp only [Decl.toks, List.length_cons, List.length_append, List.length_nil] at hn
    simp only [Decl.toks, ptoks_cons, ptoks_append, ptoks_nil, c_type, classify_ident h.1, c_semi, List.cons_append, List.append_assoc, List.nil_append]
    rw [decl]
    · simp only [type_reads t h.2 (.semi :: rest) (by intro ts h; cases h) n (by omega)]
    · intro ts h2
      exact (type_starts h.2 _).2 _ h2
  | struct x fs =>
    simp only [Decl.toks, List.length_cons, List.length_append, List.length_nil] at hn
    simp only [Decl.toks, ptoks_cons, ptoks_append, ptoks_nil, c_type, c_struct, c_lbrace, c_rbrace, classify_ident h.1, c_semi, List.cons_append, List.append_assoc, List.nil_append]
    unfold decl
    have := fields_read fs h.2 (.semi :: rest) n (by simp only [List.cons_append] at hn ⊢; omega)
    simp only [List.cons_append] at this
    simp only [this]
  | vars ds =>
    simp only [Decl.toks, List.length_cons, List.length_append, List.length_nil] at hn
    simp only [Decl.toks, ptoks_cons, ptoks_append, ptoks_nil, c_var, c_lparen, c_rparen, c_semi, List.cons_append, List.append_assoc, List.nil_append]
    unfold decl
    have := defs_read ds h (.semi :: rest) n (by simp only [List.cons_append] at hn ⊢; omega)
    simp only [List.cons_append] at this
    simp only [this]
  | consts ds =>
    simp only [Decl.toks, List.length_cons, List.length_append, List.length_nil] at hn
    simp only [Decl.toks, ptoks_cons, ptoks_append, ptoks_nil, c_const, c_lparen, c_rparen, c_semi, List.cons_append, List.append_assoc, List.nil_append]
    unfold decl
    have := defs_read ds h (.semi :: rest) n (by simp only [List.cons_append] at hn ⊢; omega)
    simp only [List.cons_append] at this
    simp only [this]
  | func recv name ps r body =>
    have hf := func_reads h rest
    simp only [func_toks, List.length_cons, List.length_append, List.length_nil] at hn
    cases recv with
    | none =>
      simp only [List.length_nil] at hn
      simp only [func_toks, ptoks_cons, ptoks_append, ptoks_nil, c_func, c_lparen, c_rparen, c_lbrace, c_rbrace, c_semi, classify_ident h.2.1, List.cons_append, List.append_assoc,
        List.nil_append]
      unfold decl
      exact hf n (by omega)
    | some x =>
      obtain ⟨x, t⟩ := x
      have hx := h.1 x t rfl
      simp only [List.length_cons, List.length_append, List.length_nil] at hn
      simp only [func_toks, ptoks_cons, ptoks_append, ptoks_nil, c_func, c_lparen, c_rparen, c_lbrace, c_rbrace, c_semi, classify_ident h.2.1, classify_ident hx.1, List.cons_append,
        List.append_assoc, List.nil_append]
      have ht := fun r => type_reads t hx.2 (.rparen :: r) (by intro ts h; cases h) n (by omega)
      unfold decl
      simp only [ht]
      exact hf n (by omega)

theorem decl_nonempty (d : Decl) : 1 ≤ d.toks.length := by
  cases d <;> simp [Decl.toks]

theorem decls_read (n : Nat) (ds : List Decl) (h : ∀ d ∈ ds, DeclOk d) (hn : 4 * (file ds).length + 12 ≤ n) : ∀ fuel, (file ds).length + 1 ≤ fuel →
    decls n fuel (ptoks (file ds)) = some ds := by
  induction ds with
  | nil =>
    intro fuel hf
    obtain ⟨fuel, rfl⟩ : ∃ m, fuel = m + 1 := ⟨fuel - 1, by omega⟩
    rfl
  | cons d ds ih =>
    intro fuel hf
    obtain ⟨fuel, rfl⟩ : ∃ m, fuel = m + 1 := ⟨fuel - 1, by omega⟩
    simp only [file, List.flatMap_cons, List.length_append] at hn hf
    have h1 := decl_reads d (h d (List.mem_cons_self ..)) (ptoks (file ds)) n (by omega)
    have h2 := decl_nonempty d
    have h3 := ih (fun e he => h e (List.mem_cons_of_mem _ he)) (by simp only [file]; omega) fuel (by simp only [file]; omega)
    have he : ptoks (file (d :: ds)) = ptoks d.toks ++ ptoks (file ds) := by simp [file]
    rw [he, decls]
    · simp only [h1, h3]; rfl
    · intro h4
      have := congrArg List.length h4
      simp at this
      rw [this.1] at h2
      simp at h2

/-- The parser reads the tokens of a program as that program. -/
theorem parse_file (ds : List Decl) (h : ∀ d ∈ ds, DeclOk d) (ho : ordered ds = true) : parse (file ds) = some ds := by
  have := decls_read (4 * (file ds).length + 16) ds h (by omega) ((file ds).length + 1) (Nat.le_refl _)
  unfold parse
  rw [ptoks] at this
  rw [this]
  simp [ho]

end GoParse
