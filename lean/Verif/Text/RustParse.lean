import Verif.Text.RustAst

/-!
# Reading Rust programs

A parser for the part of Rust that `RustAst.lean` describes (the Rust reference: "Items", "Statements", "Expressions", "Types",
"Paths").  It is written from the grammar, without reference to how trees are printed; what it does not know it refuses.
`RustParseFacts.lean` proves that it reads the tokens of a tree as that tree.
-/

namespace RustParse

open Utils
open Text hiding Tok lex
open RustLex RustAst

/-- The Rust reference, "Keywords": strict and reserved, editions 2018 and later. -/
def keywords : List Frag :=
  [go!"as", go!"break", go!"const", go!"continue", go!"crate", go!"else", go!"enum", go!"extern", go!"false", go!"fn", go!"for", go!"if",
   go!"impl", go!"in", go!"let", go!"loop", go!"match", go!"mod", go!"move", go!"mut", go!"pub", go!"ref", go!"return", go!"self",
   go!"Self", go!"static", go!"struct", go!"super", go!"trait", go!"true", go!"type", go!"unsafe", go!"use", go!"where", go!"while",
   go!"async", go!"await", go!"dyn", go!"abstract", go!"become", go!"box", go!"do", go!"final", go!"macro", go!"override", go!"priv",
   go!"typeof", go!"unsized", go!"virtual", go!"yield", go!"try"]

/-- Tokens by what they are in the grammar. -/
inductive PTok where
  | ident (s : Ident) | num (s : Frag) | life (s : Frag)
  | kas | kcrate | kdyn | kenum | kfn | kfor | kif | kimpl | kin | klet | kmut | kpub | kreturn | kself | kSelf | kstruct | ktrait | kuse | kwhere
  | underscore | dot | comma | semi | lparen | rparen | lbrack | rbrack | lbrace | rbrace
  | amp | star | question | hash | assign | lt | gt | colon | colons | arrow | dots
  | other
deriving DecidableEq, Repr

/-- The keywords that the parser knows. -/
def keyword : List (Frag × PTok) :=
  [(go!"as", .kas), (go!"crate", .kcrate), (go!"dyn", .kdyn), (go!"enum", .kenum), (go!"fn", .kfn), (go!"for", .kfor), (go!"if", .kif),
   (go!"impl", .kimpl), (go!"in", .kin), (go!"let", .klet), (go!"mut", .kmut), (go!"pub", .kpub), (go!"return", .kreturn),
   (go!"self", .kself), (go!"Self", .kSelf), (go!"struct", .kstruct), (go!"trait", .ktrait), (go!"use", .kuse), (go!"where", .kwhere)]

/-- The punctuation that the parser knows. -/
def operator : List (Frag × PTok) :=
  [(go!".", .dot), (go!",", .comma), (go!";", .semi), (go!"(", .lparen), (go!")", .rparen), (go!"[", .lbrack), (go!"]", .rbrack),
   (go!"{", .lbrace), (go!"}", .rbrace), (go!"&", .amp), (go!"*", .star), (go!"?", .question), (go!"#", .hash), (go!"=", .assign),
   (go!"<", .lt), (go!">", .gt), (go!":", .colon), (go!"::", .colons), (go!"->", .arrow), (go!"..", .dots)]

def classify : Tok → PTok
  | .word s => if s = go!"_" then .underscore else if keywords.contains s then (keyword.lookup s).getD .other else .ident s
  | .num s => .num s
  | .life s => .life s
  | .op s => (operator.lookup s).getD .other

/-! ## Paths -/

/-- A segment of a path. -/
def segment : PTok → Option Ident
  | .ident s => some s
  | .kself => some go!"self"
  | .kSelf => some go!"Self"
  | _ => none

/-- `::a::b…`, as far as it goes. -/
def segments : List PTok → List Ident × List PTok
  | .colons :: t :: ts =>
    match segment t with
    | some s => (s :: (segments ts).1, (segments ts).2)
    | none => ([], .colons :: t :: ts)
  | ts => ([], ts)

/-- `a::b…` -/
def path : List PTok → Option (List Ident × List PTok)
  | t :: ts => (segment t).map fun s => (s :: (segments ts).1, (segments ts).2)
  | [] => none

/-- Identifiers separated by commas. -/
def idents : List PTok → Option (List Ident × List PTok)
  | .ident s :: .comma :: ts => (idents ts).map fun r => (s :: r.1, r.2)
  | .ident s :: ts => some ([s], ts)
  | _ => none

/-! ## Types -/

/-- `'l`, if there is one. -/
def lifetime : List PTok → Option Ident × List PTok
  | .life l :: ts => (some l, ts)
  | ts => (none, ts)

/-- `mut`, if it stands there. -/
def mutable : List PTok → Bool × List PTok
  | .kmut :: ts => (true, ts)
  | ts => (false, ts)

def type : (fuel : Nat) → List PTok → Option (Ty × List PTok)
  | 0, _ => none
  | n + 1, ts =>
    match ts with
    | .amp :: ts =>
      match type n (mutable (lifetime ts).2).2 with
      | some (t, us) => some (.ref (lifetime ts).1 (mutable (lifetime ts).2).1 t, us)
      | none => none
    | .kdyn :: ts => (path ts).map fun r => (.dyn r.1, r.2)
    | ts =>
      match path ts with
      | some ([s], .lt :: ts) =>
        match type n ts with
        | some (t, .gt :: ts) => some (.app1 s t, ts)
        | some (t, .comma :: ts) =>
          match type n ts with
          | some (u, .gt :: ts) => some (.app2 s t u, ts)
          | _ => none
        | _ => none
      | some (p, ts) => some (.path p, ts)
      | none => none

/-! ## Expressions -/

/-- `as n`, any number of times. -/
def casts (e : Expr) : List PTok → Expr × List PTok
  | .kas :: .ident n :: ts => casts (.as e n) ts
  | ts => (e, ts)

mutual
/-- A borrow, a dereference, or an operand with what follows it.  `s`: struct expressions are allowed (they are not where a block
follows). -/
def unary : (fuel : Nat) → (s : Bool) → List PTok → Option (Expr × List PTok)
  | 0, _, _ => none
  | n + 1, s, ts =>
    match ts with
    | .amp :: ts =>
      match unary n s ts with
      | some (e, ts) => some (.ref e, ts)
      | none => none
    | .star :: ts =>
      match unary n s ts with
      | some (e, ts) => some (.deref e, ts)
      | none => none
    | .num x :: ts => post n (.num x) ts
    | ts =>
      match path ts with
      | some (p, us) =>
        match s, p, us with
        | true, [x], .lbrace :: us =>
          match fields n us with
          | some (fs, us) => post n (.lit x fs) us
          | none => none
        | _, p, us => post n (.path p) us
      | none => none
/-- What follows an operand: fields, methods, arguments, `?`. -/
def post : (fuel : Nat) → Expr → List PTok → Option (Expr × List PTok)
  | 0, _, _ => none
  | n + 1, e, ts =>
    match ts with
    | .dot :: .ident x :: .lparen :: ts =>
      match args n ts with
      | some (as, ts) => post n (.method e x as) ts
      | none => none
    | .dot :: .ident x :: ts => post n (.field e x) ts
    | .lparen :: ts =>
      match args n ts with
      | some (as, ts) => post n (.call e as) ts
      | none => none
    | .question :: ts => post n (.tr e) ts
    | ts => some (e, ts)
/-- Arguments and the closing parenthesis. -/
def args : (fuel : Nat) → List PTok → Option (Expr × List PTok)
  | 0, _ => none
  | n + 1, ts =>
    match ts with
    | .rparen :: ts => some (.anil, ts)
    | ts =>
      match expr n true ts with
      | some (a, .comma :: ts) =>
        match args n ts with
        | some (as, ts) => some (.acons a as, ts)
        | none => none
      | some (a, .rparen :: ts) => some (.acons a .anil, ts)
      | _ => none
/-- Fields `f: e,` of a struct expression and the closing brace. -/
def fields : (fuel : Nat) → List PTok → Option (Expr × List PTok)
  | 0, _ => none
  | n + 1, ts =>
    match ts with
    | .rbrace :: ts => some (.fnil, ts)
    | .ident x :: .colon :: ts =>
      match expr n true ts with
      | some (e, .comma :: ts) =>
        match fields n ts with
        | some (fs, ts) => some (.fcons x e fs, ts)
        | none => none
      | _ => none
    | _ => none
/-- A cast or a range of casts. -/
def expr : (fuel : Nat) → (s : Bool) → List PTok → Option (Expr × List PTok)
  | 0, _, _ => none
  | n + 1, s, ts =>
    match unary n s ts with
    | some (e, ts) =>
      match casts e ts with
      | (a, .dots :: ts) =>
        match unary n s ts with
        | some (e, ts) => some (.range a (casts e ts).1, (casts e ts).2)
        | none => none
      | (a, ts) => some (a, ts)
    | none => none
end

/-! ## Functions -/

/-- Parameters and the closing parenthesis. -/
def params : (fuel : Nat) → List PTok → Option (List (Ident × Ty) × List PTok)
  | 0, _ => none
  | n + 1, ts =>
    match ts with
    | .rparen :: ts => some ([], ts)
    | .ident x :: .colon :: ts =>
      match type n ts with
      | some (t, .comma :: ts) =>
        match params n ts with
        | some (ps, ts) => some ((x, t) :: ps, ts)
        | none => none
      | some (t, .rparen :: ts) => some ([(x, t)], ts)
      | _ => none
    | _ => none

/-- `<'l>`, if it stands there. -/
def generics : List PTok → Option Ident × List PTok
  | .lt :: .life l :: .gt :: ts => (some l, ts)
  | ts => (none, ts)

/-- `&'l self,`, if it stands there. -/
def receiver : List PTok → Option Ident × List PTok
  | .amp :: .life l :: .kself :: .comma :: ts => (some l, ts)
  | ts => (none, ts)

/-- `where Self: Sized`, if it stands there. -/
def sized : List PTok → Bool × List PTok
  | .kwhere :: .kSelf :: .colon :: .ident x :: ts => if x = go!"Sized" then (true, ts) else (false, .kwhere :: .kSelf :: .colon :: .ident x :: ts)
  | ts => (false, ts)

/-- A function from its name on, without the body. -/
def signature (n : Nat) (ts : List PTok) : Option (Sig × List PTok) :=
  match ts with
  | .ident f :: ts =>
    match generics ts with
    | (life, .lparen :: ts) =>
      match params n (receiver ts).2 with
      | some (ps, .arrow :: us) =>
        match type n us with
        | some (t, us) => some ({ name := f, life := life, self := (receiver ts).1, params := ps, ret := t, sized := (sized us).1 }, (sized us).2)
        | none => none
      | _ => none
    | _ => none
  | _ => none

/-! ## Statements -/

mutual
/-- A statement; an expression without a semicolon must be the last thing in its block. -/
def stmt : (fuel : Nat) → List PTok → Option (Stmt × List PTok)
  | 0, _ => none
  | n + 1, ts =>
    match ts with
    | .klet :: ts =>
      match (mutable ts).2 with
      | .ident x :: .assign :: us =>
        match expr n true us with
        | some (e, .semi :: us) => some (.let1 (mutable ts).1 x e, us)
        | _ => none
      | _ => none
    | .kreturn :: ts =>
      match expr n true ts with
      | some (e, .semi :: ts) => some (.ret e, ts)
      | _ => none
    | .kif :: .klet :: .ident c :: .lparen :: .ident x :: .rparen :: .assign :: ts =>
      match expr n false ts with
      | some (e, .lbrace :: ts) =>
        match block n ts with
        | some (b, ts) => some (.ifLet c x e b, ts)
        | none => none
      | _ => none
    | .kif :: ts =>
      match expr n false ts with
      | some (e, .lbrace :: ts) =>
        match block n ts with
        | some (b, ts) => some (.if1 e b, ts)
        | none => none
      | _ => none
    | .kfor :: .lparen :: .ident x :: .comma :: .ident y :: .rparen :: .kin :: ts =>
      match expr n false ts with
      | some (e, .lbrace :: ts) =>
        match block n ts with
        | some (b, ts) => some (.for2 x y e b, ts)
        | none => none
      | _ => none
    | .kfor :: .ident x :: .kin :: ts =>
      match expr n false ts with
      | some (e, .lbrace :: ts) =>
        match block n ts with
        | some (b, ts) => some (.for1 x e b, ts)
        | none => none
      | _ => none
    | .kfor :: .underscore :: .kin :: ts =>
      match expr n false ts with
      | some (e, .lbrace :: ts) =>
        match block n ts with
        | some (b, ts) => some (.for1 go!"_" e b, ts)
        | none => none
      | _ => none
    | .kfn :: ts =>
      match signature n ts with
      | some (s, .lbrace :: ts) =>
        match block n ts with
        | some (b, ts) => some (.func s b, ts)
        | none => none
      | _ => none
    | ts =>
      match expr n true ts with
      | some (e, .semi :: ts) => some (.expr e, ts)
      | some (e, .rbrace :: ts) => some (.tail e, .rbrace :: ts)
      | _ => none
/-- Statements and the closing brace. -/
def block : (fuel : Nat) → List PTok → Option (Stmt × List PTok)
  | 0, _ => none
  | n + 1, ts =>
    match ts with
    | .rbrace :: ts => some (.skip, ts)
    | ts =>
      match stmt n ts with
      | some (s, ts) =>
        match block n ts with
        | some (rest, ts) => some (.seq s rest, ts)
        | none => none
      | none => none
end

/-! ## Items -/

/-- Attributes `#[a(b, c)]`. -/
def attributes : (fuel : Nat) → List PTok → Option (List (Ident × List Ident) × List PTok)
  | 0, _ => none
  | n + 1, ts =>
    match ts with
    | .hash :: .lbrack :: .ident a :: .lparen :: ts =>
      match idents ts with
      | some (is, .rparen :: .rbrack :: ts) =>
        match attributes n ts with
        | some (as, ts) => some ((a, is) :: as, ts)
        | none => none
      | _ => none
    | ts => some ([], ts)

/-- Variants `V = n,` of an enum and the closing brace. -/
def variants : List PTok → Option (List (Ident × Frag) × List PTok)
  | .rbrace :: ts => some ([], ts)
  | .ident v :: .assign :: .num x :: .comma :: ts =>
    match variants ts with
    | some (vs, ts) => some ((v, x) :: vs, ts)
    | none => none
  | _ => none

/-- The visibility of a field. -/
def visibility : List PTok → Vis × List PTok
  | .kpub :: .lparen :: .kcrate :: .rparen :: ts => (.crate, ts)
  | .kpub :: ts => (.pub, ts)
  | ts => (.priv, ts)

/-- Fields `f: t,` of a struct and the closing brace. -/
def members : (fuel : Nat) → List PTok → Option (List (Vis × Ident × Ty) × List PTok)
  | 0, _ => none
  | n + 1, ts =>
    match ts with
    | .rbrace :: ts => some ([], ts)
    | ts =>
      match (visibility ts).2 with
      | .ident x :: .colon :: us =>
        match type n us with
        | some (t, .comma :: us) =>
          match members n us with
          | some (fs, us) => some (((visibility ts).1, x, t) :: fs, us)
          | none => none
        | _ => none
      | _ => none

def item (n : Nat) (ts : List PTok) : Option (Item × List PTok) :=
  match ts with
  | .kuse :: ts =>
    match path ts with
    | some (p, .semi :: ts) => some (.use1 p, ts)
    | some (p, .colons :: .lbrace :: ts) =>
      match idents ts with
      | some (is, .rbrace :: .semi :: ts) => some (.use2 p is, ts)
      | _ => none
    | _ => none
  | .kpub :: .kstruct :: .ident x :: .lbrace :: ts =>
    match members n ts with
    | some (fs, ts) => some (.struct x fs, ts)
    | none => none
  | .kpub :: .ktrait :: .ident x :: .lbrace :: .kfn :: ts =>
    match signature n ts with
    | some (s, .semi :: .rbrace :: ts) => some (.trait x s, ts)
    | _ => none
  | .kimpl :: .ident t :: .kfor :: .ident x :: .lbrace :: .kfn :: ts =>
    match signature n ts with
    | some (s, .lbrace :: ts) =>
      match block n ts with
      | some (b, .rbrace :: ts) => some (.impl t x s b, ts)
      | _ => none
    | _ => none
  | ts =>
    match attributes n ts with
    | some (as, .kpub :: .kenum :: .ident x :: .lbrace :: ts) =>
      match variants ts with
      | some (vs, ts) => some (.enum as x vs, ts)
      | none => none
    | _ => none

/-- Items up to the end of the file; `n` bounds what is inside an item. -/
def items (n : Nat) : (fuel : Nat) → List PTok → Option (List Item)
  | 0, _ => none
  | fuel + 1, ts =>
    match ts with
    | [] => some []
    | ts =>
      match item n ts with
      | some (i, ts) => (items n fuel ts).map (i :: ·)
      | none => none

/-- Read a file. -/
def parse (ts : List Tok) : Option (List Item) := items (6 * ts.length + 16) (ts.length + 1) (ts.map classify)

/-- `P` is what a text says. -/
def Reads (txt : Bytes) (P : List Item) : Prop := (lex (ofBytes txt)).bind parse = some P

example : (lex go!"use a::{b, c}; impl T for N { fn f<'a>(&'a self, b: &'a mut V<u8>) -> R<N, Box<dyn E>> where Self: Sized { for _ in 0..n { x.push(N { a: *v as u32, })?; } Ok(b) } }").bind parse = some
    [.use2 [go!"a"] [go!"b", go!"c"], .impl go!"T" go!"N" ⟨go!"f", some go!"a", some go!"a",
        [(go!"b", .ref (some go!"a") true (.app1 go!"V" (.path [go!"u8"])))], .app2 go!"R" (.path [go!"N"]) (.app1 go!"Box" (.dyn [go!"E"])), true⟩
      (.seq (.for1 go!"_" (.range (.num go!"0") (.path [go!"n"])) (.seq (.expr (.tr (.method (.path [go!"x"]) go!"push"
        (.acons (.lit go!"N" (.fcons go!"a" (.as (.deref (.path [go!"v"])) go!"u32") .fnil)) .anil)))) .skip))
        (.seq (.tail (.call (.path [go!"Ok"]) (.acons (.path [go!"b"]) .anil))) .skip))] := by
  decide +kernel

end RustParse
