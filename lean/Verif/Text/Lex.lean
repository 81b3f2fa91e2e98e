import Verif.Gen.Utils
import Lean

/-!
# Go source text: the lexical structure

Go specification, "Lexical elements", as far as the generated files need it: comments to the end of a line, automatic
semicolons, identifiers and keywords, decimal numbers, interpreted strings without escapes, operators.  Anything else makes the
lexer give up (`none`), so a text that is accepted is one that a Go compiler splits into the same tokens.

Text is a list of symbols.  A symbol is a byte or a *hole*, which stands for an identifier (or part of one) to be filled in;
ordinary text has no holes.
-/

namespace Text

open Utils

/-- A byte, or a placeholder for an identifier. -/
inductive Sym where
  | byte (b : Byte)
  | hole (i : Nat)
deriving DecidableEq, Repr, Lean.ToExpr

/-- Text with holes. -/
abbrev Frag := List Sym

/-- Text as written in a Lean string; `#0` to `#9` are holes. -/
def frag : List Char → Frag
  | [] => []
  | '#' :: c :: cs => .hole (c.toNat - 48) :: frag cs
  | c :: cs => .byte (BitVec.ofNat 8 c.toNat) :: frag cs

/-- `go!"text"` is the list of symbols of the text, written out (for the kernel, strings are slow). -/
elab:max "go!" s:str : term => return Lean.toExpr (frag s.getString.toList)

/-- Ordinary text. -/
def ofBytes (b : Bytes) : Frag := b.map .byte

/-- Fill the holes. -/
def fill (σ : Nat → Bytes) : Frag → Frag
  | [] => []
  | .byte b :: s => .byte b :: fill σ s
  | [.hole i] => ofBytes (σ i)
  | .hole i :: s => ofBytes (σ i) ++ fill σ s

/-! ## Tokens -/

inductive Tok where
  /-- an identifier or a keyword -/
  | word (s : Frag)
  | num (s : Frag)
  /-- a string, without the quotes -/
  | str (s : Frag)
  /-- an operator or punctuation, including `;` -/
  | op (s : Frag)
deriving DecidableEq, Repr

def Tok.fill (σ : Nat → Bytes) : Tok → Tok
  | .word s => .word (Text.fill σ s)
  | .num s => .num (Text.fill σ s)
  | .str s => .str (Text.fill σ s)
  | .op s => .op (Text.fill σ s)

/-- Go specification, "Keywords". -/
def keywords : List Frag :=
  [go!"break", go!"default", go!"func", go!"interface", go!"select", go!"case", go!"defer", go!"go", go!"map", go!"struct",
   go!"chan", go!"else", go!"goto", go!"package", go!"switch", go!"const", go!"fallthrough", go!"if", go!"range", go!"type",
   go!"continue", go!"for", go!"import", go!"return", go!"var"]

/-- "Semicolons": a newline after one of these keywords, or after an identifier, is a semicolon. -/
def semiWord (s : Frag) : Bool :=
  !(keywords.contains s) || [go!"break", go!"continue", go!"fallthrough", go!"return"].contains s

/-- A complete word whose holes can be filled with any identifiers: it has none, it is a hole, or a letter of its own makes
sure that it is no keyword.  (Ordinary text has no holes.) -/
def okWord (s : Frag) : Bool :=
  s.all (fun | .byte _ => true | .hole _ => false) || s.length == 1 || s.any (fun | .byte b => !isLower b | .hole _ => false)

/-- What the lexer is in the middle of. -/
inductive Cur where
  | none
  | word (s : Frag)
  | num (s : Frag)
  | str (s : Frag)
  /-- a character that may begin a two-character operator -/
  | op (b : Byte)
  | dot
  /-- in a comment to the end of the line -/
  | comment
  | bad
deriving DecidableEq, Repr

/-- `semi`: a newline now would be a semicolon. -/
structure Mode where
  semi : Bool
  cur : Cur
deriving DecidableEq, Repr

def isLetter (b : Byte) : Bool := isLower b || isUpper b || b == underscore
def isWordChar (b : Byte) : Bool := isLetter b || isDigit b

/-- Single characters that are operators of their own: `( ) [ ] { } , ;`. -/
def isSingle (b : Byte) : Bool :=
  [0x28, 0x29, 0x5B, 0x5D, 0x7B, 0x7D, 0x2C, 0x3B].contains b.toNat

/-- Characters that begin an operator of one or two characters: `: = ! + - < > & * |  ^ % /`. -/
def isOpStart (b : Byte) : Bool :=
  [0x3A, 0x3D, 0x21, 0x2B, 0x2D, 0x3C, 0x3E, 0x26, 0x2A, 0x7C, 0x5E, 0x25, 0x2F].contains b.toNat

/-- Two-character operators that the lexer knows: `:= == != ++ -- <= >=`. -/
def isTwo (a b : Byte) : Bool :=
  [(0x3A, 0x3D), (0x3D, 0x3D), (0x21, 0x3D), (0x2B, 0x2B), (0x2D, 0x2D), (0x3C, 0x3D), (0x3E, 0x3D)].contains (a.toNat, b.toNat)

/-- After `) ] }` and `++ --` a newline is a semicolon. -/
def semiOp (b : Byte) : Bool := [0x29, 0x5D, 0x7D].contains b.toNat

/-- The first character of a token, or white space.  A newline is a semicolon if the last token asks for one. -/
def start (semi : Bool) : Sym → List Tok × Mode
  | .hole i => ([], ⟨semi, .word [.hole i]⟩)
  | .byte b =>
    if isLetter b then ([], ⟨semi, .word [.byte b]⟩)
    else if isDigit b then ([], ⟨semi, .num [.byte b]⟩)
    else if b.toNat = 0x0A then (if semi then [.op go!";"] else [], ⟨false, .none⟩)
    else if b.toNat = 0x20 ∨ b.toNat = 0x09 ∨ b.toNat = 0x0D then ([], ⟨semi, .none⟩)
    else if b.toNat = 0x22 then ([], ⟨semi, .str []⟩)
    else if b.toNat = 0x2E then ([], ⟨semi, .dot⟩)
    else if isSingle b then ([.op [.byte b]], ⟨semiOp b, .none⟩)
    else if isOpStart b then ([], ⟨semi, .op b⟩)
    else ([], ⟨semi, .bad⟩)

/-- Prepend tokens. -/
def emit (ts : List Tok) (r : List Tok × Mode) : List Tok × Mode := (ts ++ r.1, r.2)

/-- One symbol. -/
def step (m : Mode) (c : Sym) : List Tok × Mode :=
  match m.cur with
  | .none => start m.semi c
  | .word s =>
    match c with
    | .hole i => ([], ⟨m.semi, .word (s ++ [.hole i])⟩)
    | .byte b => if isWordChar b then ([], ⟨m.semi, .word (s ++ [.byte b])⟩) 
      else if okWord s then emit [.word s] (start (semiWord s) c) else ([], ⟨m.semi, .bad⟩)
  | .num s =>
    match c with
    | .hole _ => ([], ⟨m.semi, .bad⟩)
    | .byte b =>
      if isDigit b then ([], ⟨m.semi, .num (s ++ [.byte b])⟩)
      else if isLetter b ∨ b.toNat = 0x2E then ([], ⟨m.semi, .bad⟩)
      else emit [.num s] (start true c)
  | .str s =>
    match c with
    | .hole _ => ([], ⟨m.semi, .bad⟩)
    | .byte b =>
      if b.toNat = 0x22 then ([.str s], ⟨true, .none⟩)
      else if b.toNat = 0x5C ∨ b.toNat = 0x0A then ([], ⟨m.semi, .bad⟩)
      else ([], ⟨m.semi, .str (s ++ [.byte b])⟩)
  | .op a =>
    match c with
    | .hole _ => if a.toNat = 0x2F then ([], ⟨m.semi, .bad⟩) else emit [.op [.byte a]] (start false c)
    | .byte b =>
      if a.toNat = 0x2F then (if b.toNat = 0x2F then ([], ⟨m.semi, .comment⟩) else ([], ⟨m.semi, .bad⟩))
      else if isTwo a b then ([.op [.byte a, .byte b]], ⟨a.toNat = 0x2B ∨ a.toNat = 0x2D, .none⟩)
      else if isOpStart b ∧ ¬ (b.toNat = 0x26 ∨ b.toNat = 0x2A) then ([], ⟨m.semi, .bad⟩)
      else if (a.toNat = 0x26 ∨ a.toNat = 0x2A) ∧ b = a then ([], ⟨m.semi, .bad⟩)
      else emit [.op [.byte a]] (start false c)
  | .dot =>
    match c with
    | .hole _ => emit [.op go!"."] (start false c)
    | .byte b => if isDigit b ∨ b.toNat = 0x2E then ([], ⟨m.semi, .bad⟩) else emit [.op go!"."] (start false c)
  | .comment =>
    match c with
    | .hole _ => ([], m)
    | .byte b => if b.toNat = 0x0A then start m.semi c else ([], m)
  | .bad => ([], m)

/-- The tokens completed while reading a text, and the mode after it. -/
def run (m : Mode) : Frag → List Tok × Mode
  | [] => ([], m)
  | c :: cs => emit (step m c).1 (run (step m c).2 cs)

/-- The lexer: the tokens of a text that ends between two tokens, after a semicolon or at the beginning. -/
def lex (s : Frag) : Option (List Tok) :=
  match run ⟨false, .none⟩ s with
  | (ts, ⟨false, .none⟩) => some ts
  | _ => none

example : lex go!"// c\nfunc (x *Foo) f() {\n  a, err := d.Int32(x.F[i])\n i++\n}\n" = some
    [.word go!"func", .op go!"(", .word go!"x", .op go!"*", .word go!"Foo", .op go!")", .word go!"f", .op go!"(", .op go!")", .op go!"{",
     .word go!"a", .op go!",", .word go!"err", .op go!":=", .word go!"d", .op go!".", .word go!"Int32", .op go!"(", .word go!"x", .op go!".",
     .word go!"F", .op go!"[", .word go!"i", .op go!"]", .op go!")", .op go!";", .word go!"i", .op go!"++", .op go!";", .op go!"}", .op go!";"] := by
  decide +kernel

end Text
