import Verif.Text.Ast

/-!
# Reading Go programs

A parser for the part of Go that `Ast.lean` describes (Go specification: "Types", "Expressions", "Statements", "Declarations
and scope", "Source file organization").  It is written from the grammar, without reference to how trees are printed; what it
does not know it refuses.  `ParseFacts.lean` proves that it reads the tokens of a tree as that tree.
-/

namespace GoParse

open Text GoAst

/-- Tokens by what they are in the grammar. -/
inductive PTok where
  | ident (s : Ident) | num (s : Frag) | str (s : Frag)
  | kpackage | kimport | ktype | kstruct | kvar | kconst | kfunc | kreturn | kif | kelse | kfor | krange | kmap | kdefer
  | dot | comma | semi | lparen | rparen | lbrack | rbrack | lbrace | rbrace
  | star | amp | bang | assign | define | eq | ne | lt | inc | colon
  | other
deriving DecidableEq, Repr

/-- The keywords that the parser knows. -/
def keyword : List (Frag × PTok) :=
  [(go!"package", .kpackage), (go!"import", .kimport), (go!"type", .ktype), (go!"struct", .kstruct), (go!"var", .kvar),
   (go!"const", .kconst), (go!"func", .kfunc), (go!"return", .kreturn), (go!"if", .kif), (go!"else", .kelse), (go!"for", .kfor),
   (go!"range", .krange), (go!"map", .kmap), (go!"defer", .kdefer)]

/-- The operators and the punctuation that the parser knows. -/
def operator : List (Frag × PTok) :=
  [(go!".", .dot), (go!",", .comma), (go!";", .semi), (go!"(", .lparen), (go!")", .rparen), (go!"[", .lbrack), (go!"]", .rbrack),
   (go!"{", .lbrace), (go!"}", .rbrace), (go!"*", .star), (go!"&", .amp), (go!"!", .bang), (go!"=", .assign), (go!":=", .define),
   (go!"==", .eq), (go!"!=", .ne), (go!"<", .lt), (go!"++", .inc), (go!":", .colon)]

def classify : Tok → PTok
  | .word s => if keywords.contains s then (keyword.lookup s).getD .other else .ident s
  | .num s => .num s
  | .str s => .str s
  | .op s => (operator.lookup s).getD .other

/-! ## Types -/

def type : (fuel : Nat) → List PTok → Option (Ty × List PTok)
  | 0, _ => none
  | n + 1, ts =>
    match ts with
    | .ident p :: .dot :: .ident t :: ts => some (.qual p t, ts)
    | .ident t :: ts => some (.name t, ts)
    | .star :: ts =>
      match type n ts with
      | some (t, ts) => some (.ptr t, ts)
      | none => none
    | .lbrack :: .rbrack :: ts =>
      match type n ts with
      | some (t, ts) => some (.slice t, ts)
      | none => none
    | .kmap :: .lbrack :: ts =>
      match type n ts with
      | some (k, .rbrack :: ts) =>
        match type n ts with
        | some (v, ts) => some (.map k v, ts)
        | none => none
      | _ => none
    | _ => none

/-! ## Expressions -/

/-- Elements `f: g(),` of a composite literal, up to the closing brace. -/
def elements : List PTok → Option (List (Ident × Ident) × List PTok)
  | .rbrace :: ts => some ([], ts)
  | .ident f :: .colon :: .ident g :: .lparen :: .rparen :: .comma :: ts =>
    match elements ts with
    | some (fs, ts) => some ((f, g) :: fs, ts)
    | none => none
  | _ => none

mutual
/-- An operand and what follows it: selectors, indices, arguments.  `&T{…}` is not followed by anything. -/
def primary : (fuel : Nat) → List PTok → Option (Expr × List PTok)
  | 0, _ => none
  | n + 1, ts =>
    match ts with
    | .ident x :: ts =>
      if x = go!"make" then
        match ts with
        | .lparen :: ts =>
          match type n ts with
          | some (t, .comma :: ts) =>
            match expr n ts with
            | some (e, .rparen :: ts) => post n (.make t e) ts
            | _ => none
          | _ => none
        | _ => none
      else post n (.var x) ts
    | .num s :: ts => post n (.num s) ts
    | .str s :: ts => post n (.str s) ts
    | .amp :: .ident t :: .lbrace :: ts =>
      match elements ts with
      | some (fs, ts) => some (.new t fs, ts)
      | none => none
    | _ => none
/-- What follows an operand. -/
def post : (fuel : Nat) → Expr → List PTok → Option (Expr × List PTok)
  | 0, _, _ => none
  | n + 1, e, ts =>
    match ts with
    | .dot :: .ident x :: ts => post n (.sel e x) ts
    | .lbrack :: ts =>
      match expr n ts with
      | some (i, .rbrack :: ts) => post n (.index e i) ts
      | _ => none
    | .lparen :: .rparen :: ts => post n (.call0 e) ts
    | .lparen :: ts =>
      match args n ts with
      | some ([a], ts) => post n (.call1 e a) ts
      | some ([a, b], ts) => post n (.call2 e a b) ts
      | some ([a, b, c], ts) => post n (.call3 e a b c) ts
      | _ => none
    | ts => some (e, ts)
/-- Arguments and the closing parenthesis. -/
def args : (fuel : Nat) → List PTok → Option (List Expr × List PTok)
  | 0, _ => none
  | n + 1, ts =>
    match expr n ts with
    | some (a, .comma :: ts) =>
      match args n ts with
      | some (as, ts) => some (a :: as, ts)
      | none => none
    | some (a, .rparen :: ts) => some ([a], ts)
    | _ => none
/-- A negation, a comparison or a primary expression. -/
def expr : (fuel : Nat) → List PTok → Option (Expr × List PTok)
  | 0, _ => none
  | n + 1, ts =>
    match ts with
    | .bang :: ts =>
      match primary n ts with
      | some (a, ts) => some (.not a, ts)
      | none => none
    | ts =>
      match primary n ts with
      | some (a, .eq :: ts) =>
        match primary n ts with
        | some (b, ts) => some (.eq a b, ts)
        | none => none
      | some (a, .ne :: ts) =>
        match primary n ts with
        | some (b, ts) => some (.ne a b, ts)
        | none => none
      | some (a, .lt :: ts) =>
        match primary n ts with
        | some (b, ts) => some (.lt a b, ts)
        | none => none
      | some (a, ts) => some (a, ts)
      | none => none
end

/-! ## Statements -/

mutual
/-- A simple statement: an expression or an assignment. -/
def simple : (fuel : Nat) → List PTok → Option (Stmt × List PTok)
  | 0, _ => none
  | n + 1, ts =>
    match expr n ts with
    | some (l, .assign :: ts) =>
      match expr n ts with
      | some (e, ts) => some (.assign l e, ts)
      | none => none
    | some (.var x, .define :: ts) =>
      match expr n ts with
      | some (e, ts) => some (.define x e, ts)
      | none => none
    | some (l, .comma :: ts) =>
      match expr n ts with
      | some (m, .assign :: ts) =>
        match expr n ts with
        | some (e, ts) => some (.assign2 l m e, ts)
        | none => none
      | some (.var b, .define :: ts) =>
        match l, expr n ts with
        | .var a, some (e, ts) => some (.define2 a b e, ts)
        | _, _ => none
      | _ => none
    | some (e, ts) => some (.expr e, ts)
    | none => none
/-- A statement, without the semicolon. -/
def stmt : (fuel : Nat) → List PTok → Option (Stmt × List PTok)
  | 0, _ => none
  | n + 1, ts =>
    match ts with
    | .kvar :: .ident x :: ts =>
      match type n ts with
      | some (t, ts) => some (.var x t, ts)
      | none => none
    | .kdefer :: ts =>
      match expr n ts with
      | some (e, ts) => some (.defer e, ts)
      | none => none
    | .kreturn :: .semi :: ts => some (.ret, .semi :: ts)
    | .kreturn :: .rbrace :: ts => some (.ret, .rbrace :: ts)
    | .kreturn :: ts =>
      match expr n ts with
      | some (e, ts) => some (.ret1 e, ts)
      | none => none
    | .kif :: ts =>
      match expr n ts with
      | some (c, .lbrace :: ts) =>
        match block n ts with
        | some (t, false, .kelse :: .lbrace :: ts) =>
          match block n ts with
          | some (f, tight, ts) => some (.ite c t f tight, ts)
          | none => none
        | some (t, false, ts) => some (.if1 c t, ts)
        | _ => none
      | _ => none
    | .kfor :: .ident i :: .define :: ts =>
      match expr n ts with
      | some (e, .semi :: ts) =>
        match expr n ts with
        | some (c, .semi :: .ident j :: .inc :: .lbrace :: ts) =>
          match block n ts with
          | some (b, false, ts) => if i = j then some (.for3 i e c b, ts) else none
          | _ => none
        | _ => none
      | _ => none
    | .kfor :: .ident k :: .comma :: .ident v :: .define :: .krange :: ts =>
      match expr n ts with
      | some (e, .lbrace :: ts) =>
        match block n ts with
        | some (b, false, ts) => some (.range k v e b, ts)
        | _ => none
      | _ => none
    | ts => simple n ts
/-- Statements up to the closing brace, and whether the semicolon before it is left out. -/
def block : (fuel : Nat) → List PTok → Option (Stmt × Bool × List PTok)
  | 0, _ => none
  | n + 1, ts =>
    match ts with
    | .rbrace :: ts => some (.skip, false, ts)
    | ts =>
      match stmt n ts with
      | some (s, .semi :: ts) =>
        match block n ts with
        | some (rest, tight, ts) => some (.seq s rest, tight, ts)
        | none => none
      | some (s, .rbrace :: ts) => some (.seq s .skip, true, ts)
      | _ => none
end

/-! ## Declarations -/

/-- Import paths up to the closing parenthesis. -/
def paths : List PTok → Option (List Frag × List PTok)
  | .rparen :: ts => some ([], ts)
  | .str p :: .semi :: ts =>
    match paths ts with
    | some (ps, ts) => some (p :: ps, ts)
    | none => none
  | _ => none

/-- Fields up to the closing brace. -/
def fields : (fuel : Nat) → List PTok → Option (List (Ident × Ty) × List PTok)
  | 0, _ => none
  | n + 1, ts =>
    match ts with
    | .rbrace :: ts => some ([], ts)
    | .ident x :: ts =>
      match type n ts with
      | some (t, .semi :: ts) =>
        match fields n ts with
        | some (fs, ts) => some ((x, t) :: fs, ts)
        | none => none
      | _ => none
    | _ => none

/-- Definitions `n = e` up to the closing parenthesis. -/
def defs : (fuel : Nat) → List PTok → Option (List (Ident × Expr) × List PTok)
  | 0, _ => none
  | n + 1, ts =>
    match ts with
    | .rparen :: ts => some ([], ts)
    | .ident x :: .assign :: ts =>
      match expr n ts with
      | some (e, .semi :: ts) =>
        match defs n ts with
        | some (ds, ts) => some ((x, e) :: ds, ts)
        | none => none
      | _ => none
    | _ => none

/-- Parameters up to the closing parenthesis. -/
def params : (fuel : Nat) → List PTok → Option (List (Ident × Ty) × List PTok)
  | 0, _ => none
  | n + 1, ts =>
    match ts with
    | .rparen :: ts => some ([], ts)
    | .ident x :: ts =>
      match type n ts with
      | some (t, .comma :: .ident y :: ts) =>
        match params n (.ident y :: ts) with
        | some (ps, ts) => some ((x, t) :: ps, ts)
        | none => none
      | some (t, .rparen :: ts) => some ([(x, t)], ts)
      | _ => none
    | _ => none

/-- The result and the opening brace. -/
def result (n : Nat) (ts : List PTok) : Option (Option Ty × List PTok) :=
  match ts with
  | .lbrace :: ts => some (none, ts)
  | ts =>
    match type n ts with
    | some (t, .lbrace :: ts) => some (some t, ts)
    | _ => none

/-- A function from its name on. -/
def func (n : Nat) (recv : Option (Ident × Ty)) (ts : List PTok) : Option (Decl × List PTok) :=
  match ts with
  | .ident f :: .lparen :: ts =>
    match params n ts with
    | some (ps, ts) =>
      match result n ts with
      | some (r, ts) =>
        match block n ts with
        | some (b, false, .semi :: ts) => some (.func recv f ps r b, ts)
        | _ => none
      | none => none
    | none => none
  | _ => none

/-- A declaration with the semicolon after it. -/
def decl (n : Nat) (ts : List PTok) : Option (Decl × List PTok) :=
  match ts with
  | .kpackage :: .ident p :: .semi :: ts => some (.package p, ts)
  | .kimport :: .lparen :: ts =>
    match paths ts with
    | some (ps, .semi :: ts) => some (.imports ps, ts)
    | _ => none
  | .ktype :: .ident t :: .kstruct :: .lbrace :: ts =>
    match fields n ts with
    | some (fs, .semi :: ts) => some (.struct t fs, ts)
    | _ => none
  | .ktype :: .ident t :: ts =>
    match type n ts with
    | some (u, .semi :: ts) => some (.type t u, ts)
    | _ => none
  | .kvar :: .lparen :: ts =>
    match defs n ts with
    | some (ds, .semi :: ts) => some (.vars ds, ts)
    | _ => none
  | .kconst :: .lparen :: ts =>
    match defs n ts with
    | some (ds, .semi :: ts) => some (.consts ds, ts)
    | _ => none
  | .kfunc :: .lparen :: .ident x :: ts =>
    match type n ts with
    | some (t, .rparen :: ts) => func n (some (x, t)) ts
    | _ => none
  | .kfunc :: ts => func n none ts
  | _ => none

/-- Declarations up to the end of the file; `n` bounds what is inside a declaration. -/
def decls (n : Nat) : (fuel : Nat) → List PTok → Option (List Decl)
  | 0, _ => none
  | fuel + 1, ts =>
    match ts with
    | [] => some []
    | ts =>
      match decl n ts with
      | some (d, ts) => (decls n fuel ts).map (d :: ·)
      | none => none

/-- "Source file organization": a package clause, imports, the other declarations. -/
def ordered : List Decl → Bool
  | .package _ :: ds => go ds
  | _ => false
where
  go : List Decl → Bool
    | .imports _ :: ds => go ds
    | ds => ds.all fun
      | .package _ => false
      | .imports _ => false
      | _ => true

/-- Read a file. -/
def parse (ts : List Tok) : Option (List Decl) :=
  match decls (4 * ts.length + 16) (ts.length + 1) (ts.map classify) with
  | some ds => if ordered ds then some ds else none
  | none => none

/-- `P` is what a text says. -/
def Reads (txt : Bytes) (P : List Decl) : Prop := (lex (ofBytes txt)).bind parse = some P

example : (lex go!"package p\n\nfunc (x *Foo) F(b []byte) error {\n  a, err := d.Int32(x.F[i])\n if !ok {\n return nil\n }\n return err\n}\n").bind parse = some
    [.package go!"p", .func (some (go!"x", .ptr (.name go!"Foo"))) go!"F" [(go!"b", .slice (.name go!"byte"))] (some (.name go!"error"))
      (.seq (.define2 go!"a" go!"err" (.call1 (.sel (.var go!"d") go!"Int32") (.index (.sel (.var go!"x") go!"F") (.var go!"i"))))
        (.seq (.if1 (.not (.var go!"ok")) (.seq (.ret1 (.var go!"nil")) .skip)) (.seq (.ret1 (.var go!"err")) .skip)))] := by
  decide +kernel

end GoParse
