import Verif.Text.Lex

/-!
# Go programs

The syntax of the generated files as trees, and the tokens of a tree.  Identifiers are texts; in a concrete program they have no
holes.  Go specification: "Types", "Expressions", "Statements", "Declarations and scope".
-/

namespace GoAst

open Text

/-- An identifier. -/
abbrev Ident := Frag

inductive Ty where
  | name (n : Ident)
  /-- `p.n` -/
  | qual (p n : Ident)
  | slice (t : Ty)
  | ptr (t : Ty)
  | map (k v : Ty)
deriving DecidableEq, Repr

/-- Expressions; the operands of `eq`, `ne`, `lt` and `not` are primary expressions (no parentheses needed). -/
inductive Expr where
  | var (n : Ident)
  | num (n : Frag)
  | str (s : Frag)
  /-- `e.n` -/
  | sel (e : Expr) (n : Ident)
  /-- `e[i]` -/
  | index (e i : Expr)
  | call0 (f : Expr)
  | call1 (f a : Expr)
  | call2 (f a b : Expr)
  | call3 (f a b c : Expr)
  /-- `make(t, n)` -/
  | make (t : Ty) (n : Expr)
  /-- `&T{ f: g(), … }`; every element has a comma after it, and its value is a call without arguments -/
  | new (t : Ident) (fs : List (Ident × Ident))
  | eq (a b : Expr)
  | ne (a b : Expr)
  | lt (a b : Expr)
  | not (a : Expr)
deriving DecidableEq, Repr

/-- Statements; `skip` and `seq` make sequences. -/
inductive Stmt where
  | skip
  | seq (s : Stmt) (rest : Stmt)
  | expr (e : Expr)
  /-- `l = e` -/
  | assign (l e : Expr)
  /-- `l, m = e` -/
  | assign2 (l m e : Expr)
  /-- `n := e` -/
  | define (n : Ident) (e : Expr)
  /-- `defer e` -/
  | defer (e : Expr)
  /-- `l, m := e` -/
  | define2 (l m : Ident) (e : Expr)
  /-- `var n t` -/
  | var (n : Ident) (t : Ty)
  | ret
  | ret1 (e : Expr)
  /-- `if c { t }` -/
  | if1 (c : Expr) (t : Stmt)
  /-- `if c { t } else { f }`; `tight`: the semicolon before the last brace is left out -/
  | ite (c : Expr) (t f : Stmt) (tight : Bool)
  /-- `for i := e; c; i++ { b }` -/
  | for3 (i : Ident) (e c : Expr) (b : Stmt)
  /-- `for k, v := range e { b }` -/
  | range (k v : Ident) (e : Expr) (b : Stmt)
deriving DecidableEq, Repr

/-- Package-level declarations. -/
inductive Decl where
  | package (n : Ident)
  | imports (paths : List Frag)
  /-- `type n t` -/
  | type (n : Ident) (t : Ty)
  /-- `type n struct { … }` -/
  | struct (n : Ident) (fields : List (Ident × Ty))
  /-- `var ( n = e )` -/
  | vars (defs : List (Ident × Expr))
  | consts (defs : List (Ident × Expr))
  | func (recv : Option (Ident × Ty)) (name : Ident) (params : List (Ident × Ty)) (result : Option Ty) (body : Stmt)
deriving DecidableEq, Repr

/-! ## Tokens -/

def semi : Tok := .op go!";"

def Ty.toks : Ty → List Tok
  | .name n => [.word n]
  | .qual p n => [.word p, .op go!".", .word n]
  | .slice t => .op go!"[" :: .op go!"]" :: t.toks
  | .ptr t => .op go!"*" :: t.toks
  | .map k v => .word go!"map" :: .op go!"[" :: k.toks ++ .op go!"]" :: v.toks

def Expr.toks : Expr → List Tok
  | .var n => [.word n]
  | .num n => [.num n]
  | .str s => [.str s]
  | .sel e n => e.toks ++ [.op go!".", .word n]
  | .index e i => e.toks ++ .op go!"[" :: i.toks ++ [.op go!"]"]
  | .call0 f => f.toks ++ [.op go!"(", .op go!")"]
  | .call1 f a => f.toks ++ .op go!"(" :: a.toks ++ [.op go!")"]
  | .call2 f a b => f.toks ++ .op go!"(" :: a.toks ++ .op go!"," :: b.toks ++ [.op go!")"]
  | .call3 f a b c => f.toks ++ .op go!"(" :: a.toks ++ .op go!"," :: b.toks ++ .op go!"," :: c.toks ++ [.op go!")"]
  | .make t n => .word go!"make" :: .op go!"(" :: t.toks ++ .op go!"," :: n.toks ++ [.op go!")"]
  | .new t fs => .op go!"&" :: .word t :: .op go!"{" ::
      fs.flatMap (fun f => [.word f.1, .op go!":", .word f.2, .op go!"(", .op go!")", .op go!","]) ++ [.op go!"}"]
  | .eq a b => a.toks ++ .op go!"==" :: b.toks
  | .ne a b => a.toks ++ .op go!"!=" :: b.toks
  | .lt a b => a.toks ++ .op go!"<" :: b.toks
  | .not a => .op go!"!" :: a.toks

/-- The tokens of a statement list; every statement with the semicolon after it, except the last if `tight`. -/
def Stmt.toks (tight : Bool) : Stmt → List Tok
  | .skip => []
  | .seq s rest => s.toks tight ++ (if tight ∧ rest = .skip then [] else [semi]) ++ rest.toks tight
  | .expr e => e.toks
  | .assign l e => l.toks ++ .op go!"=" :: e.toks
  | .assign2 l m e => l.toks ++ .op go!"," :: m.toks ++ .op go!"=" :: e.toks
  | .define n e => .word n :: .op go!":=" :: e.toks
  | .defer e => .word go!"defer" :: e.toks
  | .define2 l m e => .word l :: .op go!"," :: .word m :: .op go!":=" :: e.toks
  | .var n t => .word go!"var" :: .word n :: t.toks
  | .ret => [.word go!"return"]
  | .ret1 e => .word go!"return" :: e.toks
  | .if1 c t => .word go!"if" :: c.toks ++ .op go!"{" :: t.toks false ++ [.op go!"}"]
  | .ite c t f tight => .word go!"if" :: c.toks ++ .op go!"{" :: t.toks false ++ .op go!"}" :: .word go!"else" :: .op go!"{" :: f.toks tight ++ [.op go!"}"]
  | .for3 i e c b => .word go!"for" :: .word i :: .op go!":=" :: e.toks ++ semi :: c.toks ++ semi :: .word i :: .op go!"++" :: .op go!"{" ::
      b.toks false ++ [.op go!"}"]
  | .range k v e b => .word go!"for" :: .word k :: .op go!"," :: .word v :: .op go!":=" :: .word go!"range" :: e.toks ++ .op go!"{" ::
      b.toks false ++ [.op go!"}"]

/-- Parameters, separated by commas. -/
def params : List (Ident × Ty) → List Tok
  | [] => []
  | [(n, t)] => .word n :: t.toks
  | (n, t) :: ps => .word n :: t.toks ++ .op go!"," :: params ps

def Decl.toks : Decl → List Tok
  | .package n => [.word go!"package", .word n, semi]
  | .imports ps => .word go!"import" :: .op go!"(" :: ps.flatMap (fun p => [.str p, semi]) ++ [.op go!")", semi]
  | .type n t => .word go!"type" :: .word n :: t.toks ++ [semi]
  | .struct n fs => .word go!"type" :: .word n :: .word go!"struct" :: .op go!"{" ::
      fs.flatMap (fun f => .word f.1 :: f.2.toks ++ [semi]) ++ [.op go!"}", semi]
  | .vars ds => .word go!"var" :: .op go!"(" :: ds.flatMap (fun d => .word d.1 :: .op go!"=" :: d.2.toks ++ [semi]) ++ [.op go!")", semi]
  | .consts ds => .word go!"const" :: .op go!"(" :: ds.flatMap (fun d => .word d.1 :: .op go!"=" :: d.2.toks ++ [semi]) ++ [.op go!")", semi]
  | .func recv name ps result body => .word go!"func" ::
      (match recv with | none => [] | some r => .op go!"(" :: .word r.1 :: r.2.toks ++ [.op go!")"]) ++
      .word name :: .op go!"(" :: params ps ++ .op go!")" ::
      (match result with | none => [] | some t => t.toks) ++
      .op go!"{" :: body.toks false ++ [.op go!"}", semi]

/-- A whole file. -/
def file (ds : List Decl) : List Tok := ds.flatMap Decl.toks

end GoAst
