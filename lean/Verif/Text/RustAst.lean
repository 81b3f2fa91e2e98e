import Verif.Text.RustLex

/-!
# Rust programs

The syntax of the generated files as trees, and the tokens of a tree.  The Rust reference: "Types", "Expressions", "Statements",
"Items".
-/

namespace RustAst

open Text hiding Tok
open RustLex

/-- An identifier. -/
abbrev Ident := Frag

inductive Ty where
  /-- `a::b::c` -/
  | path (segs : List Ident)
  /-- `N<t>` -/
  | app1 (n : Ident) (t : Ty)
  /-- `N<t, u>` -/
  | app2 (n : Ident) (t u : Ty)
  /-- `&t`, `&'l t`, `&mut t`, `&'l mut t` -/
  | ref (life : Option Ident) (m : Bool) (t : Ty)
  /-- `dyn a::b` -/
  | dyn (segs : List Ident)
deriving DecidableEq, Repr

/-- Expressions.  `anil` and `acons` make argument lists, `fnil` and `fcons` make the fields of a struct expression. -/
inductive Expr where
  /-- `x`, `a::b` -/
  | path (segs : List Ident)
  | num (n : Frag)
  /-- `e.n` -/
  | field (e : Expr) (n : Ident)
  /-- `e.n(args)` -/
  | method (e : Expr) (n : Ident) (args : Expr)
  /-- `f(args)` -/
  | call (f : Expr) (args : Expr)
  /-- `e?` -/
  | tr (e : Expr)
  /-- `&e` -/
  | ref (e : Expr)
  /-- `*e` -/
  | deref (e : Expr)
  /-- `e as n` -/
  | as (e : Expr) (n : Ident)
  /-- `a..b` -/
  | range (a b : Expr)
  /-- `N{ f: e, … }` -/
  | lit (n : Ident) (fs : Expr)
  | anil
  | acons (a : Expr) (rest : Expr)
  | fnil
  | fcons (n : Ident) (e : Expr) (rest : Expr)
deriving DecidableEq, Repr

/-- The parts of a function before its body: `fn name<'life>(&'self self, params) -> ret where Self: Sized`. -/
structure Sig where
  name : Ident
  life : Option Ident := none
  self : Option Ident := none
  params : List (Ident × Ty)
  ret : Ty
  sized : Bool := false
deriving DecidableEq, Repr

/-- Statements; `skip` and `seq` make sequences. -/
inductive Stmt where
  | skip
  | seq (s : Stmt) (rest : Stmt)
  /-- `let n = e;`, `let mut n = e;` -/
  | let1 (m : Bool) (n : Ident) (e : Expr)
  /-- `e;` -/
  | expr (e : Expr)
  /-- `e` at the end of a block -/
  | tail (e : Expr)
  /-- `return e;` -/
  | ret (e : Expr)
  /-- `if c { t }` -/
  | if1 (c : Expr) (t : Stmt)
  /-- `if let C(x) = e { t }` -/
  | ifLet (c x : Ident) (e : Expr) (t : Stmt)
  /-- `for x in e { b }`; `x` may be `_` -/
  | for1 (x : Ident) (e : Expr) (b : Stmt)
  /-- `for (x, y) in e { b }` -/
  | for2 (x y : Ident) (e : Expr) (b : Stmt)
  /-- a function inside a block -/
  | func (sig : Sig) (body : Stmt)
deriving DecidableEq, Repr

inductive Vis where
  | priv | pub | crate
deriving DecidableEq, Repr

inductive Item where
  /-- `use a::b;`, `use a::{b, c};` -/
  | use1 (segs : List Ident)
  | use2 (segs : List Ident) (group : List Ident)
  /-- `#[a(b, c)] pub enum N { V = n, … }` -/
  | enum (attrs : List (Ident × List Ident)) (n : Ident) (variants : List (Ident × Frag))
  /-- `pub struct N { f: t, … }` -/
  | struct (n : Ident) (fields : List (Vis × Ident × Ty))
  /-- `pub trait N { fn …; }` -/
  | trait (n : Ident) (sig : Sig)
  /-- `impl T for N { fn … { body } }` -/
  | impl (tr n : Ident) (sig : Sig) (body : Stmt)
deriving DecidableEq, Repr

/-! ## Tokens -/

def pathToks : List Ident → List Tok
  | [] => []
  | [n] => [.word n]
  | n :: ns => .word n :: .op go!"::" :: pathToks ns

def commaToks : List Ident → List Tok
  | [] => []
  | [n] => [.word n]
  | n :: ns => .word n :: .op go!"," :: commaToks ns

def lifeToks : Option Ident → List Tok
  | none => []
  | some l => [.life l]

def Ty.toks : Ty → List Tok
  | .path segs => pathToks segs
  | .app1 n t => .word n :: .op go!"<" :: t.toks ++ [.op go!">"]
  | .app2 n t u => .word n :: .op go!"<" :: t.toks ++ .op go!"," :: u.toks ++ [.op go!">"]
  | .ref l m t => .op go!"&" :: lifeToks l ++ (if m then [.word go!"mut"] else []) ++ t.toks
  | .dyn segs => .word go!"dyn" :: pathToks segs

def Expr.toks : Expr → List Tok
  | .path segs => pathToks segs
  | .num n => [.num n]
  | .field e n => e.toks ++ [.op go!".", .word n]
  | .method e n args => e.toks ++ .op go!"." :: .word n :: .op go!"(" :: args.toks ++ [.op go!")"]
  | .call f args => f.toks ++ .op go!"(" :: args.toks ++ [.op go!")"]
  | .tr e => e.toks ++ [.op go!"?"]
  | .ref e => .op go!"&" :: e.toks
  | .deref e => .op go!"*" :: e.toks
  | .as e n => e.toks ++ [.word go!"as", .word n]
  | .range a b => a.toks ++ .op go!".." :: b.toks
  | .lit n fs => .word n :: .op go!"{" :: fs.toks ++ [.op go!"}"]
  | .anil => []
  | .acons a .anil => a.toks
  | .acons a rest => a.toks ++ .op go!"," :: rest.toks
  | .fnil => []
  | .fcons n e rest => .word n :: .op go!":" :: e.toks ++ .op go!"," :: rest.toks

/-- Parameters, separated by commas. -/
def paramToks : List (Ident × Ty) → List Tok
  | [] => []
  | [(n, t)] => .word n :: .op go!":" :: t.toks
  | (n, t) :: ps => .word n :: .op go!":" :: t.toks ++ .op go!"," :: paramToks ps

def Sig.toks (s : Sig) : List Tok :=
  .word go!"fn" :: .word s.name :: (match s.life with | none => [] | some l => [.op go!"<", .life l, .op go!">"]) ++
  .op go!"(" :: (match s.self with | none => [] | some l => [.op go!"&", .life l, .word go!"self", .op go!","]) ++ paramToks s.params ++
  .op go!")" :: .op go!"->" :: s.ret.toks ++
  (if s.sized then [.word go!"where", .word go!"Self", .op go!":", .word go!"Sized"] else [])

def Stmt.toks : Stmt → List Tok
  | .skip => []
  | .seq s rest => s.toks ++ rest.toks
  | .let1 m n e => .word go!"let" :: (if m then [.word go!"mut"] else []) ++ .word n :: .op go!"=" :: e.toks ++ [.op go!";"]
  | .expr e => e.toks ++ [.op go!";"]
  | .tail e => e.toks
  | .ret e => .word go!"return" :: e.toks ++ [.op go!";"]
  | .if1 c t => .word go!"if" :: c.toks ++ .op go!"{" :: t.toks ++ [.op go!"}"]
  | .ifLet c x e t => .word go!"if" :: .word go!"let" :: .word c :: .op go!"(" :: .word x :: .op go!")" :: .op go!"=" :: e.toks ++
      .op go!"{" :: t.toks ++ [.op go!"}"]
  | .for1 x e b => .word go!"for" :: .word x :: .word go!"in" :: e.toks ++ .op go!"{" :: b.toks ++ [.op go!"}"]
  | .for2 x y e b => .word go!"for" :: .op go!"(" :: .word x :: .op go!"," :: .word y :: .op go!")" :: .word go!"in" :: e.toks ++
      .op go!"{" :: b.toks ++ [.op go!"}"]
  | .func sig body => sig.toks ++ .op go!"{" :: body.toks ++ [.op go!"}"]

def Vis.toks : Vis → List Tok
  | .priv => []
  | .pub => [.word go!"pub"]
  | .crate => [.word go!"pub", .op go!"(", .word go!"crate", .op go!")"]

def Item.toks : Item → List Tok
  | .use1 segs => .word go!"use" :: pathToks segs ++ [.op go!";"]
  | .use2 segs group => .word go!"use" :: pathToks segs ++ .op go!"::" :: .op go!"{" :: commaToks group ++ [.op go!"}", .op go!";"]
  | .enum attrs n vs => attrs.flatMap (fun a => .op go!"#" :: .op go!"[" :: .word a.1 :: .op go!"(" :: commaToks a.2 ++ [.op go!")", .op go!"]"]) ++
      .word go!"pub" :: .word go!"enum" :: .word n :: .op go!"{" ::
      vs.flatMap (fun v => [.word v.1, .op go!"=", .num v.2, .op go!","]) ++ [.op go!"}"]
  | .struct n fs => .word go!"pub" :: .word go!"struct" :: .word n :: .op go!"{" ::
      fs.flatMap (fun f => f.1.toks ++ .word f.2.1 :: .op go!":" :: f.2.2.toks ++ [.op go!","]) ++ [.op go!"}"]
  | .trait n sig => .word go!"pub" :: .word go!"trait" :: .word n :: .op go!"{" :: sig.toks ++ [.op go!";", .op go!"}"]
  | .impl tr n sig body => .word go!"impl" :: .word tr :: .word go!"for" :: .word n :: .op go!"{" :: sig.toks ++
      .op go!"{" :: body.toks ++ [.op go!"}", .op go!"}"]

/-- A whole file. -/
def file (is : List Item) : List Tok := is.flatMap Item.toks

end RustAst
