import Verif.Text.TsLex

/-!
# TypeScript programs

The syntax of the generated files as trees, and the tokens of a tree.  Where the generated files end a statement or a member of a
class with a line break, so do the tokens.
-/

namespace TsAst

open Text hiding Tok
open TsLex

/-- An identifier. -/
abbrev Ident := Frag

inductive Ty where
  | name (n : Ident)
  /-- `t[]` -/
  | arr (t : Ty)
  /-- `Map<t, u>` -/
  | map (t u : Ty)
  /-- `{ n: t }` -/
  | obj1 (n : Ident) (t : Ty)
  /-- `{ n: t, m: u }` -/
  | obj2 (n : Ident) (t : Ty) (m : Ident) (u : Ty)
deriving DecidableEq, Repr

/-- Expressions.  `anil` and `acons` make argument lists. -/
inductive Expr where
  | var (n : Ident)
  | num (n : Frag)
  /-- `e.n` -/
  | field (e : Expr) (n : Ident)
  /-- `f(args)` -/
  | call (f : Expr) (args : Expr)
  /-- `new N(args)`; `trailing`: a comma after every argument -/
  | new (n : Ident) (trailing : Bool) (args : Expr)
  /-- `e as t` -/
  | as (e : Expr) (t : Ty)
  /-- `[]` -/
  | empty
  /-- `{ n: e }` -/
  | obj1 (n : Ident) (e : Expr)
  /-- `{ n: e, m: f }` -/
  | obj2 (n : Ident) (e : Expr) (m : Ident) (f : Expr)
  | anil
  | acons (a : Expr) (rest : Expr)
deriving DecidableEq, Repr

/-- Statements; `skip` and `seq` make sequences. -/
inductive Stmt where
  | skip
  | seq (s : Stmt) (rest : Stmt)
  /-- `let n = e` -/
  | let1 (n : Ident) (e : Expr)
  /-- `const n = e` -/
  | const1 (n : Ident) (e : Expr)
  /-- `const n: t = e` -/
  | constT (n : Ident) (t : Ty) (e : Expr)
  /-- `l = e`, ended by a line break or by `;` -/
  | assign (l e : Expr) (semicolon : Bool)
  | expr (e : Expr)
  /-- `e.forEach((x, …) => { b })` -/
  | forEach (e : Expr) (params : List Ident) (b : Stmt)
  /-- `for (let i = 0; i < e; i++) { b }` -/
  | for1 (i : Ident) (e : Expr) (b : Stmt)
  | ret (e : Expr)
deriving DecidableEq, Repr

/-- Members of a class. -/
inductive Member where
  /-- `constructor(n: t, …,) { b }` -/
  | ctor (params : List (Ident × Ty)) (b : Stmt)
  /-- `private n: t` -/
  | prop (n : Ident) (t : Ty)
  /-- `get n(): t { b }` -/
  | getter (n : Ident) (t : Ty) (b : Stmt)
  /-- `set n(x: t) { b }` -/
  | setter (n x : Ident) (t : Ty) (b : Stmt)
  /-- `n(x: t): u { b }`, `static n(x: t): u { b }` -/
  | method (static : Bool) (n x : Ident) (t u : Ty) (b : Stmt)
deriving DecidableEq, Repr

inductive Item where
  /-- `import { a, b, } from "p"` -/
  | import1 (names : List Ident) (p : Frag)
  /-- `enum N { V = n, … }` -/
  | enum (n : Ident) (values : List (Ident × Frag))
  /-- `export class N { … }` -/
  | cls (n : Ident) (members : List Member)
deriving DecidableEq, Repr

/-! ## Tokens -/

def Ty.toks : Ty → List Tok
  | .name n => [.word n]
  | .arr t => t.toks ++ [.op go!"[", .op go!"]"]
  | .map t u => .word go!"Map" :: .op go!"<" :: t.toks ++ .op go!"," :: u.toks ++ [.op go!">"]
  | .obj1 n t => .op go!"{" :: .word n :: .op go!":" :: t.toks ++ [.op go!"}"]
  | .obj2 n t m u => .op go!"{" :: .word n :: .op go!":" :: t.toks ++ .op go!"," :: .word m :: .op go!":" :: u.toks ++ [.op go!"}"]

/-- The arguments with a comma after each (`argsEach`) or between them (`toks`). -/
def Expr.toksWith : Bool → Expr → List Tok
  | _, .var n => [.word n]
  | _, .num n => [.num n]
  | _, .field e n => e.toksWith false ++ [.op go!".", .word n]
  | _, .call f args => f.toksWith false ++ .op go!"(" :: args.toksWith false ++ [.op go!")"]
  | _, .new n trailing args => .word go!"new" :: .word n :: .op go!"(" :: args.toksWith trailing ++ [.op go!")"]
  | _, .as e t => e.toksWith false ++ .word go!"as" :: t.toks
  | _, .empty => [.op go!"[", .op go!"]"]
  | _, .obj1 n e => .op go!"{" :: .word n :: .op go!":" :: e.toksWith false ++ [.op go!"}"]
  | _, .obj2 n e m f => .op go!"{" :: .word n :: .op go!":" :: e.toksWith false ++ .op go!"," :: .word m :: .op go!":" :: f.toksWith false ++ [.op go!"}"]
  | _, .anil => []
  | true, .acons a rest => a.toksWith false ++ .op go!"," :: rest.toksWith true
  | false, .acons a .anil => a.toksWith false
  | false, .acons a rest => a.toksWith false ++ .op go!"," :: rest.toksWith false

def Expr.toks (e : Expr) : List Tok := e.toksWith false

/-- Parameters, a comma after each. -/
def paramToks (ps : List (Ident × Ty)) : List Tok := ps.flatMap fun p => .word p.1 :: .op go!":" :: p.2.toks ++ [.op go!","]

/-- Names, a comma between them. -/
def commaToks : List Ident → List Tok
  | [] => []
  | [n] => [.word n]
  | n :: ns => .word n :: .op go!"," :: commaToks ns

def Stmt.toks : Stmt → List Tok
  | .skip => []
  | .seq s rest => s.toks ++ rest.toks
  | .let1 n e => .word go!"let" :: .word n :: .op go!"=" :: e.toks ++ [.nl]
  | .const1 n e => .word go!"const" :: .word n :: .op go!"=" :: e.toks ++ [.nl]
  | .constT n t e => .word go!"const" :: .word n :: .op go!":" :: t.toks ++ .op go!"=" :: e.toks ++ [.nl]
  | .assign l e semicolon => l.toks ++ .op go!"=" :: e.toks ++ [if semicolon then .op go!";" else .nl]
  | .expr e => e.toks ++ [.nl]
  | .forEach e ps b => e.toks ++ .op go!"." :: .word go!"forEach" :: .op go!"(" :: .op go!"(" :: commaToks ps ++ .op go!")" :: .op go!"=>" :: .op go!"{" ::
      b.toks ++ [.op go!"}", .op go!")", .nl]
  | .for1 i e b => .word go!"for" :: .op go!"(" :: .word go!"let" :: .word i :: .op go!"=" :: .num go!"0" :: .op go!";" :: .word i :: .op go!"<" :: e.toks ++
      .op go!";" :: .word i :: .op go!"++" :: .op go!")" :: .op go!"{" :: b.toks ++ [.op go!"}", .nl]
  | .ret e => .word go!"return" :: e.toks ++ [.nl]

def Member.toks : Member → List Tok
  | .ctor ps b => .word go!"constructor" :: .op go!"(" :: paramToks ps ++ .op go!")" :: .op go!"{" :: b.toks ++ [.op go!"}", .nl]
  | .prop n t => .word go!"private" :: .word n :: .op go!":" :: t.toks ++ [.nl]
  | .getter n t b => .word go!"get" :: .word n :: .op go!"(" :: .op go!")" :: .op go!":" :: t.toks ++ .op go!"{" :: b.toks ++ [.op go!"}", .nl]
  | .setter n x t b => .word go!"set" :: .word n :: .op go!"(" :: .word x :: .op go!":" :: t.toks ++ .op go!")" :: .op go!"{" :: b.toks ++ [.op go!"}", .nl]
  | .method static n x t u b => (if static then [.word go!"static"] else []) ++ .word n :: .op go!"(" :: .word x :: .op go!":" :: t.toks ++
      .op go!")" :: .op go!":" :: u.toks ++ .op go!"{" :: b.toks ++ [.op go!"}", .nl]

def Item.toks : Item → List Tok
  | .import1 ns p => .word go!"import" :: .op go!"{" :: ns.flatMap (fun n => [.word n, .op go!","]) ++ [.op go!"}", .word go!"from", .str p, .nl]
  | .enum n vs => .word go!"enum" :: .word n :: .op go!"{" :: vs.flatMap (fun v => [.word v.1, .op go!"=", .num v.2, .op go!","]) ++ [.op go!"}", .nl]
  | .cls n ms => .word go!"export" :: .word go!"class" :: .word n :: .op go!"{" :: ms.flatMap Member.toks ++ [.op go!"}", .nl]

/-- A whole file. -/
def file (is : List Item) : List Tok := is.flatMap Item.toks

end TsAst
