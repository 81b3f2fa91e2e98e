import Verif.Text.Lex

/-!
# The template language of Go's `text/template`

As far as the templates of the generators use it: actions, comments, trim markers (`-}}`, `{{-`), variables, `if`/`else if`/`else`,
`range` with one or two variables, `define`, `template`, calls of functions and methods, parenthesised expressions.  Whatever
else occurs makes the parser fail.  Nothing here models polyglot code; it is the meaning of the files in
/repo/v2/generator/golang/templates, which are used as they are (`GoTemplates.lean`).  Reference: the documentation of
package `text/template`.
-/

namespace Tmpl

open Utils

/-- `str!"text"` is the list of the bytes of the text. -/
elab:max "str!" s:str : term => return Lean.toExpr (s.getString.toList.map fun c => BitVec.ofNat 8 c.toNat)

/-- An identifier as a number: its bytes in base 256. -/
def pack (b : Bytes) : Nat := b.foldl (fun n c => n * 256 + c.toNat) 0

/-- `id!"name"` is the number of the identifier. -/
macro:max "id!" s:str : term => return Lean.Syntax.mkNatLit (pack (s.getString.toList.map fun c => BitVec.ofNat 8 c.toNat))

/-! ## Syntax -/

/-- Expressions.  `path none fs args` is `.f1.f2…fn args`, `path (some v) fs args` is `$v.f1…fn args` (`v = 0` for `$`);
`call f args` calls a function. -/
inductive Expr where
  | nil
  | cons (hd tl : Expr)
  | str (s : Bytes)
  | num (n : Nat)
  | path (root : Option Nat) (fields : List Nat) (args : Expr)
  | call (fn : Nat) (args : Expr)
deriving DecidableEq, Repr, Lean.ToExpr

/-- A sequence of nodes. -/
inductive Body where
  | nil
  | text (s : Bytes) (rest : Body)
  /-- `{{ e }}` -/
  | action (e : Expr) (rest : Body)
  /-- `{{ $v := e }}` -/
  | assign (v : Nat) (e : Expr) (rest : Body)
  | ite (e : Expr) (t f : Body) (rest : Body)
  /-- `{{ range $i, $v := e }}`; `i` is missing in `{{ range $v := e }}` -/
  | range (i : Option Nat) (v : Nat) (e : Expr) (b : Body) (rest : Body)
  | template (name : Nat) (e : Expr) (rest : Body)
deriving DecidableEq, Repr, Lean.ToExpr

/-! ## Words of an action -/

inductive Word where
  | ident (n : Nat)
  | path (root : Option Nat) (fields : List Nat)
  | str (s : Bytes)
  | num (n : Nat)
  | lp | rp | assign | comma
deriving DecidableEq, Repr

inductive WCur where
  | none
  | ident (n : Nat)
  | var (n : Nat)
  /-- after a dot: the fields before, and the one being read -/
  | path (root : Option Nat) (fields : List Nat) (cur : Nat)
  | str (s : Bytes)
  | num (n : Nat)
  | colon
  | afterRp
deriving DecidableEq, Repr

/-- The word that ends here. -/
def WCur.flush : WCur → Option (List Word)
  | .none => some []
  | .afterRp => some []
  | .ident n => some [.ident n]
  | .var n => some [.path (some n) []]
  | .path root fields cur =>
    if cur = 0 then (if root = Option.none ∧ fields = [] then some [.path Option.none []] else Option.none)
    else some [.path root (fields ++ [cur])]
  | .num n => some [.num n]
  | .str _ => Option.none
  | .colon => Option.none

def push (n : Nat) (c : Byte) : Nat := n * 256 + c.toNat

/-- Split the text of an action into words. -/
def words (cur : WCur) : Bytes → Option (List Word)
  | [] => cur.flush
  | c :: cs =>
    match cur with
    | .str s => if c.toNat = 0x22 then (words .none cs).map (.str s :: ·) else if c.toNat = 0x5C then none else words (.str (s ++ [c])) cs
    | .colon => if c.toNat = 0x3D then (words .none cs).map (.assign :: ·) else none
    | cur =>
      if Text.isLetter c then
        match cur with
        | .none => words (.ident c.toNat) cs
        | .ident n => words (.ident (push n c)) cs
        | .var n => words (.var (push n c)) cs
        | .path r fs n => words (.path r fs (push n c)) cs
        | _ => none
      else if isDigit c then
        match cur with
        | .none => words (.num (c.toNat - 48)) cs
        | .num n => words (.num (n * 10 + (c.toNat - 48))) cs
        | .ident n => words (.ident (push n c)) cs
        | .var n => words (.var (push n c)) cs
        | .path r fs n => if n = 0 then none else words (.path r fs (push n c)) cs
        | _ => none
      else if c.toNat = 0x24 then
        match cur with
        | .none => words (.var 0) cs
        | _ => none
      else if c.toNat = 0x2E then
        match cur with
        | .none => words (.path none [] 0) cs
        | .var n => words (.path (some n) [] 0) cs
        | .path r fs n => if n = 0 then none else words (.path r (fs ++ [n]) 0) cs
        | _ => none
      else match cur.flush with
        | none => none
        | some w =>
          if c.toNat = 0x20 ∨ c.toNat = 0x09 ∨ c.toNat = 0x0A ∨ c.toNat = 0x0D then (words .none cs).map (w ++ ·)
          else if c.toNat = 0x28 then (words .none cs).map (w ++ .lp :: ·)
          else if c.toNat = 0x29 then (words .afterRp cs).map (w ++ .rp :: ·)
          else if c.toNat = 0x2C then (words .none cs).map (w ++ .comma :: ·)
          else if c.toNat = 0x22 then (words (.str []) cs).map (w ++ ·)
          else if c.toNat = 0x3A then (words .colon cs).map (w ++ ·)
          else none

/-! ## Texts and actions -/

inductive Piece where
  | text (s : Bytes)
  | action (ws : List Word)
deriving DecidableEq, Repr

/-- Split before and after the first `c c`. -/
def cut (c : Nat) : Bytes → Option (Bytes × Bytes)
  | a :: b :: rest =>
    if a.toNat = c ∧ b.toNat = c then some ([], rest)
    else (cut c (b :: rest)).map fun r => (a :: r.1, r.2)
  | _ => none

def isSpace (c : Byte) : Bool := c.toNat = 0x20 || c.toNat = 0x09 || c.toNat = 0x0A || c.toNat = 0x0D

def trimLeft (b : Bytes) : Bytes := b.dropWhile isSpace
def trimRight (b : Bytes) : Bytes := (b.reverse.dropWhile isSpace).reverse

/-- Does the text of an action begin with a trim marker (a minus and white space)? -/
def leftTrim : Bytes → Option Bytes
  | a :: b :: rest => if a.toNat = 0x2D ∧ isSpace b then some rest else none
  | _ => none

/-- Does it end with one? -/
def rightTrim (b : Bytes) : Option Bytes := (leftTrim b.reverse).map List.reverse

/-- `/* … */` -/
def isComment (b : Bytes) : Bool :=
  match trimLeft b, (trimRight b).reverse with
  | x :: y :: _, u :: v :: _ => x.toNat = 0x2F && y.toNat = 0x2A && u.toNat = 0x2F && v.toNat = 0x2A
  | _, _ => false

/-- The texts and actions of a file; `trim`: the action before ended with `-}}`. -/
def pieces : (fuel : Nat) → (trim : Bool) → Bytes → Option (List Piece)
  | 0, _, _ => none
  | fuel + 1, trim, src =>
    let tidy (s : Bytes) := if trim then trimLeft s else s
    let put (s : Bytes) (ps : List Piece) := if s = [] then ps else .text s :: ps
    match cut 0x7B src with
    | none => some (put (tidy src) [])
    | some (pre, rest) =>
      match cut 0x7D rest with
      | none => none
      | some (act, rest) =>
        let pre := match leftTrim act with
          | some _ => trimRight (tidy pre)
          | none => tidy pre
        let act := (leftTrim act).getD act
        let next := (rightTrim act).isSome
        let act := (rightTrim act).getD act
        if isComment act then (pieces fuel next rest).map (put pre ·)
        else do
          let ws ← words .none act
          let ps ← pieces fuel next rest
          some (put pre (.action ws :: ps))

/-! ## Expressions -/

/-- The arguments up to `)` or the end. -/
def args : (fuel : Nat) → List Word → Option (Expr × List Word)
  | 0, _ => none
  | fuel + 1, ws =>
    match ws with
    | [] => some (.nil, [])
    | .rp :: _ => some (.nil, ws)
    | .num n :: ws => do let r ← args fuel ws; some (.cons (.num n) r.1, r.2)
    | .str s :: ws => do let r ← args fuel ws; some (.cons (.str s) r.1, r.2)
    | .path p fs :: ws => do let r ← args fuel ws; some (.cons (.path p fs .nil) r.1, r.2)
    | .ident f :: ws => do let r ← args fuel ws; some (.cons (.call f .nil) r.1, r.2)
    | .lp :: ws =>
      match ws with
      | .ident f :: ws => do
        let a ← args fuel ws
        match a.2 with
        | .rp :: ws => do let r ← args fuel ws; some (.cons (.call f a.1) r.1, r.2)
        | _ => none
      | .path p fs :: ws => do
        let a ← args fuel ws
        match a.2 with
        | .rp :: ws => do let r ← args fuel ws; some (.cons (.path p fs a.1) r.1, r.2)
        | _ => none
      | _ => none
    | .assign :: _ => none
    | .comma :: _ => none

/-- A whole expression: a call with arguments, or a single operand. -/
def expr (ws : List Word) : Option Expr :=
  match ws with
  | .ident f :: ws => match args (ws.length + 1) ws with
    | some (a, []) => some (.call f a)
    | _ => none
  | .path p fs :: ws => match args (ws.length + 1) ws with
    | some (a, []) => some (.path p fs a)
    | _ => none
  | ws => match args (ws.length + 1) ws with
    | some (.cons e .nil, []) => some e
    | _ => none

/-! ## Nodes -/

/-- How a sequence of nodes ends. -/
inductive End where
  | eof
  | fin
  | els (ws : List Word)
deriving DecidableEq, Repr

mutual
/-- The nodes up to the end of the file, `{{end}}` or `{{else …}}`. -/
def nodes : (fuel : Nat) → List Piece → Option (Body × End × List Piece)
  | 0, _ => none
  | fuel + 1, ps =>
    match ps with
    | [] => some (.nil, .eof, [])
    | .text s :: ps => do let r ← nodes fuel ps; some (.text s r.1, r.2)
    | .action ws :: ps =>
      match ws with
      | [.ident id!"end"] => some (.nil, .fin, ps)
      | .ident id!"else" :: ws => some (.nil, .els ws, ps)
      | .ident id!"if" :: ws => do
        let (b, ps) ← conditional fuel ws ps
        let r ← nodes fuel ps
        some (b r.1, r.2)
      | .ident id!"range" :: .path (some i) [] :: .comma :: .path (some v) [] :: .assign :: ws => do
        let e ← expr ws
        match ← nodes fuel ps with
        | (b, .fin, ps) => do let r ← nodes fuel ps; some (.range (some i) v e b r.1, r.2)
        | _ => none
      | .ident id!"range" :: .path (some v) [] :: .assign :: ws => do
        let e ← expr ws
        match ← nodes fuel ps with
        | (b, .fin, ps) => do let r ← nodes fuel ps; some (.range none v e b r.1, r.2)
        | _ => none
      | .ident id!"template" :: .str n :: ws => do
        let e ← expr ws
        let r ← nodes fuel ps
        some (.template (pack n) e r.1, r.2)
      | .path (some v) [] :: .assign :: ws => do
        let e ← expr ws
        let r ← nodes fuel ps
        some (.assign v e r.1, r.2)
      | .ident n :: _ =>
        if [id!"define", id!"block", id!"with", id!"break", id!"continue", id!"range", id!"template", id!"nil", id!"true", id!"false"].contains n
        then none
        else do
          let e ← expr ws
          let r ← nodes fuel ps
          some (.action e r.1, r.2)
      | _ => do
        let e ← expr ws
        let r ← nodes fuel ps
        some (.action e r.1, r.2)
/-- The branches of an `if` with this condition. -/
def conditional : (fuel : Nat) → List Word → List Piece → Option ((Body → Body) × List Piece)
  | 0, _, _ => none
  | fuel + 1, ws, ps => do
    let e ← expr ws
    match ← nodes fuel ps with
    | (t, .fin, ps) => some (.ite e t .nil, ps)
    | (t, .els [], ps) =>
      match ← nodes fuel ps with
      | (f, .fin, ps) => some (.ite e t f, ps)
      | _ => none
    | (t, .els (.ident id!"if" :: ws), ps) => do
      let (f, ps) ← conditional fuel ws ps
      some (.ite e t (f .nil), ps)
    | _ => none
end

/-- The definitions of a file; text between them is dropped. -/
def definitions : (fuel : Nat) → List Piece → Option (List (Nat × Body))
  | 0, _ => none
  | fuel + 1, ps =>
    match ps with
    | [] => some []
    | .text _ :: ps => definitions fuel ps
    | .action [.ident id!"define", .str n] :: ps =>
      match nodes fuel ps with
      | some (b, .fin, ps) => (definitions fuel ps).map ((pack n, b) :: ·)
      | _ => none
    | _ => none

/-- A file that consists of definitions. -/
def parseDefinitions (src : Bytes) : Option (List (Nat × Body)) := do
  let ps ← pieces (src.length + 1) false src
  definitions (2 * ps.length + 2) ps

/-- A file without definitions. -/
def parseBody (src : Bytes) : Option Body := do
  let ps ← pieces (src.length + 1) false src
  match nodes (2 * ps.length + 2) ps with
  | some (b, .eof, []) => some b
  | _ => none

/-! ## Execution -/

/-- The data that templates work on. -/
structure Lang (V : Type) where
  str : Bytes → V
  num : Nat → V
  /-- field or method of a value, with the arguments of the call -/
  get : V → Nat → List V → Option V
  func : Nat → List V → Option V
  truth : V → Bool
  /-- what `range` goes over: indices and elements -/
  iter : V → Option (List (V × V))
  print : V → Option Bytes

variable {V : Type}

/-- The variables, newest first; `$` has the number 0. -/
abbrev Env (V : Type) := List (Nat × V)

/-- Follow the fields; the arguments go to the last. -/
def follow (L : Lang V) (v : V) : List Nat → List V → Option V
  | [], [] => some v
  | [], _ :: _ => none
  | [f], as => L.get v f as
  | f :: fs, as => do follow L (← L.get v f []) fs as

/-- The values of an expression (an argument list has several). -/
def eval (L : Lang V) (env : Env V) (dot : V) : Expr → Option (List V)
  | .nil => some []
  | .cons hd tl => do some ((← eval L env dot hd) ++ (← eval L env dot tl))
  | .str s => some [L.str s]
  | .num n => some [L.num n]
  | .path root fields as => do
    let as ← eval L env dot as
    let base ← match root with
      | none => some dot
      | some v => env.lookup v
    some [← follow L base fields as]
  | .call f as => do
    let as ← eval L env dot as
    some [← L.func f as]

/-- The one value of an expression. -/
def eval1 (L : Lang V) (env : Env V) (dot : V) (e : Expr) : Option V :=
  match eval L env dot e with
  | some [v] => some v
  | _ => none

/-- Concatenate outputs. -/
def concat (xs : List (Option Bytes)) : Option Bytes :=
  match xs with
  | [] => some []
  | none :: _ => none
  | some a :: xs => (concat xs).map (a ++ ·)

/-- The variables in a round of a loop. -/
def round (i : Option Nat) (v : Nat) (x : V × V) (env : Env V) : Env V :=
  match i with
  | some i => (v, x.2) :: (i, x.1) :: env
  | none => (v, x.2) :: env

/-- The output of a sequence of nodes.  `call` executes named templates. -/
def exec (L : Lang V) (call : Nat → V → Option Bytes) : Body → Env V → V → Option Bytes
  | .nil, _, _ => some []
  | .text s rest, env, dot => do some (s ++ (← exec L call rest env dot))
  | .action e rest, env, dot => do
    let a ← L.print (← eval1 L env dot e)
    some (a ++ (← exec L call rest env dot))
  | .assign v e rest, env, dot => do
    let a ← eval1 L env dot e
    exec L call rest ((v, a) :: env) dot
  | .ite e t f rest, env, dot => do
    let a ← eval1 L env dot e
    let b ← if L.truth a then exec L call t env dot else exec L call f env dot
    some (b ++ (← exec L call rest env dot))
  | .range i v e b rest, env, dot => do
    let xs ← L.iter (← eval1 L env dot e)
    let a ← concat (xs.map fun x => exec L call b (round i v x env) x.2)
    some (a ++ (← exec L call rest env dot))
  | .template n e rest, env, dot => do
    let a ← call n (← eval1 L env dot e)
    some (a ++ (← exec L call rest env dot))

/-- Execute a named template; `fuel` bounds the depth of calls. -/
def run (L : Lang V) (defs : List (Nat × Body)) : (fuel : Nat) → Nat → V → Option Bytes
  | 0, _, _ => none
  | fuel + 1, n, v => do
    let b ← defs.lookup n
    exec L (run L defs fuel) b [(0, v)] v

end Tmpl
