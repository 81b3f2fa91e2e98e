import Verif.Text.LexFacts
import Verif.Text.RustLex

/-!
# TypeScript source text: the lexical structure

The lexical grammar of ECMAScript, as far as the generated files need it: comments to the end of a line, identifiers and keywords,
decimal integers, strings in double quotes without escapes, punctuation.  Anything else makes the lexer give up.  Symbols and holes
are those of `Lex.lean`.

A line break matters where a statement or a member of a class can end ("Automatic semicolon insertion"): after an identifier
or keyword, a number, a string, `)`, `]`, `}` and `>`.  There the first line break is a token of its own; elsewhere line breaks are white space.
-/

namespace TsLex

open Utils Text
open RustLex (IsWord)

inductive Tok where
  /-- an identifier or a keyword -/
  | word (s : Frag)
  | num (s : Frag)
  /-- a string, without the quotes -/
  | str (s : Frag)
  /-- punctuation -/
  | op (s : Frag)
  /-- a line break after a token with which a statement can end -/
  | nl
deriving DecidableEq, Repr

def Tok.fill (σ : Nat → Bytes) : Tok → Tok
  | .word s => .word (Text.fill σ s)
  | .num s => .num (Text.fill σ s)
  | .str s => .str (Text.fill σ s)
  | .op s => .op (Text.fill σ s)
  | .nl => .nl

/-- What the lexer is in the middle of. -/
inductive Cur where
  | none
  | word (s : Frag)
  | num (s : Frag)
  | str (s : Frag)
  /-- `=`, `+` or `/` -/
  | op (b : Byte)
  /-- in a comment to the end of the line -/
  | comment
  | bad
deriving DecidableEq, Repr

/-- `semi`: a line break now would be a token. -/
structure Mode where
  semi : Bool
  cur : Cur
deriving DecidableEq, Repr

/-- Between two tokens, at a place where line breaks are white space. -/
abbrev Mode.between : Mode := ⟨false, .none⟩

/-- Single characters: `( ) [ ] { } , ; < > : .`. -/
def isSingle (b : Byte) : Bool := [0x28, 0x29, 0x5B, 0x5D, 0x7B, 0x7D, 0x2C, 0x3B, 0x3C, 0x3E, 0x3A, 0x2E].contains b.toNat

/-- `=`, `+` and `/` may begin a longer token. -/
def isOpStart (b : Byte) : Bool := [0x3D, 0x2B, 0x2F].contains b.toNat

/-- `=>` and `++` -/
def isTwo (a b : Byte) : Bool := [(0x3D, 0x3E), (0x2B, 0x2B)].contains (a.toNat, b.toNat)

/-- `) ] } >` -/
def semiOp (b : Byte) : Bool := [0x29, 0x5D, 0x7D, 0x3E].contains b.toNat

/-- The first character of a token, or white space. -/
def start (semi : Bool) : Sym → List Tok × Mode
  | .hole i => ([], ⟨semi, .word [.hole i]⟩)
  | .byte b =>
    if isLetter b then ([], ⟨semi, .word [.byte b]⟩)
    else if isDigit b then ([], ⟨semi, .num [.byte b]⟩)
    else if b.toNat = 0x0A then (if semi then [.nl] else [], ⟨false, .none⟩)
    else if b.toNat = 0x20 ∨ b.toNat = 0x09 ∨ b.toNat = 0x0D then ([], ⟨semi, .none⟩)
    else if b.toNat = 0x22 then ([], ⟨semi, .str []⟩)
    else if isOpStart b then ([], ⟨semi, .op b⟩)
    else if isSingle b then ([.op [.byte b]], ⟨semiOp b, .none⟩)
    else ([], ⟨semi, .bad⟩)

/-- Prepend tokens. -/
def emit (ts : List Tok) (r : List Tok × Mode) : List Tok × Mode := (ts ++ r.1, r.2)

/-- One symbol. -/
def step (m : Mode) (c : Sym) : List Tok × Mode :=
  match m.cur with
  | .none => start m.semi c
  | .word s =>
    match c with
    | .hole i => ([], ⟨m.semi, .word (s ++ [.hole i])⟩)
    | .byte b => if isWordChar b then ([], ⟨m.semi, .word (s ++ [.byte b])⟩) else emit [.word s] (start true c)
  | .num s =>
    match c with
    | .hole _ => ([], ⟨m.semi, .bad⟩)
    | .byte b =>
      if isDigit b then ([], ⟨m.semi, .num (s ++ [.byte b])⟩)
      else if isLetter b ∨ b.toNat = 0x2E then ([], ⟨m.semi, .bad⟩)
      else emit [.num s] (start true c)
  | .str s =>
    match c with
    | .hole _ => ([], ⟨m.semi, .bad⟩)
    | .byte b =>
      if b.toNat = 0x22 then ([.str s], ⟨true, .none⟩)
      else if b.toNat = 0x5C ∨ b.toNat = 0x0A then ([], ⟨m.semi, .bad⟩)
      else ([], ⟨m.semi, .str (s ++ [.byte b])⟩)
  | .op a =>
    match c with
    | .hole _ => if a.toNat = 0x2F then ([], ⟨m.semi, .bad⟩) else emit [.op [.byte a]] (start false c)
    | .byte b =>
      if a.toNat = 0x2F then (if b.toNat = 0x2F then ([], ⟨m.semi, .comment⟩) else ([], ⟨m.semi, .bad⟩))
      else if isTwo a b then ([.op [.byte a, .byte b]], ⟨a.toNat = 0x2B, .none⟩)
      else if isOpStart b then ([], ⟨m.semi, .bad⟩)
      else emit [.op [.byte a]] (start false c)
  | .comment =>
    match c with
    | .hole _ => ([], m)
    | .byte b => if b.toNat = 0x0A then start m.semi c else ([], m)
  | .bad => ([], m)

/-- The tokens completed while reading a text, and the mode after it. -/
def run (m : Mode) : Frag → List Tok × Mode
  | [] => ([], m)
  | c :: cs => emit (step m c).1 (run (step m c).2 cs)

/-- The lexer: the tokens of a text that ends between two tokens, after a line break. -/
def lex (s : Frag) : Option (List Tok) :=
  match run .between s with
  | (ts, ⟨false, .none⟩) => some ts
  | _ => none

example : lex go!"// c\nlet a = { buf: b,\n value: [] }\n\n for (let i = 0; i < x.size; i++) {\n f(\"s\").g((v, k) => {\n return this._x })\n}\n" = some
    [.word go!"let", .word go!"a", .op go!"=", .op go!"{", .word go!"buf", .op go!":", .word go!"b", .op go!",", .word go!"value", .op go!":",
     .op go!"[", .op go!"]", .op go!"}", .nl, .word go!"for", .op go!"(", .word go!"let", .word go!"i", .op go!"=", .num go!"0", .op go!";",
     .word go!"i", .op go!"<", .word go!"x", .op go!".", .word go!"size", .op go!";", .word go!"i", .op go!"++", .op go!")", .op go!"{",
     .word go!"f", .op go!"(", .str go!"s", .op go!")", .op go!".", .word go!"g", .op go!"(", .op go!"(", .word go!"v", .op go!",", .word go!"k", .op go!")",
     .op go!"=>", .op go!"{", .word go!"return", .word go!"this", .op go!".", .word go!"_x", .op go!"}", .op go!")", .nl, .op go!"}", .nl] := by
  decide +kernel

/-! ## Filling holes -/

theorem emit_nil (r : List Tok × Mode) : emit [] r = r := rfl
theorem emit_emit (a b : List Tok) (r : List Tok × Mode) : emit a (emit b r) = emit (a ++ b) r := by simp [emit]

theorem run_append (m : Mode) (s t : Frag) : run m (s ++ t) = emit (run m s).1 (run (run m s).2 t) := by
  induction s generalizing m with
  | nil => rfl
  | cons c cs ih => simp only [List.cons_append, run, ih, emit, List.append_assoc]

theorem run_seq {m m1 m2 : Mode} {s t : Frag} {ts us : List Tok} (h1 : run m s = (ts, m1)) (h2 : run m1 t = (us, m2)) : run m (s ++ t) = (ts ++ us, m2) := by
  rw [run_append, h1, h2]; rfl

def Cur.fill (σ : Nat → Bytes) : Cur → Cur
  | .word s => .word (Text.fill σ s)
  | .num s => .num (Text.fill σ s)
  | .str s => .str (Text.fill σ s)
  | c => c

def Mode.fill (σ : Nat → Bytes) (m : Mode) : Mode := ⟨m.semi, m.cur.fill σ⟩

/-- Tokens and what comes after, filled. -/
def fillR (σ : Nat → Bytes) (r : List Tok × Mode) : List Tok × Mode := (r.1.map (Tok.fill σ), r.2.fill σ)

theorem fillR_emit (σ : Nat → Bytes) (a : List Tok) (r : List Tok × Mode) : fillR σ (emit a r) = emit (a.map (Tok.fill σ)) (fillR σ r) := by
  simp [fillR, emit]

theorem run_bad (b : Bool) (s : Frag) : run ⟨b, .bad⟩ s = ([], ⟨b, .bad⟩) := by
  induction s with
  | nil => rfl
  | cons c cs ih => simp [run, step, ih, emit]

theorem start_fill (σ : Nat → Bytes) (semi : Bool) (b : Byte) : fillR σ (start semi (.byte b)) = start semi (.byte b) := by
  simp only [start]
  repeat' split
  all_goals simp [fillR, Mode.fill, Cur.fill, Tok.fill, Text.fill]

theorem step_byte (σ : Nat → Bytes) (m : Mode) (b : Byte) : step (m.fill σ) (.byte b) = fillR σ (step m (.byte b)) := by
  obtain ⟨semi, cur⟩ := m
  cases cur with
  | none => exact (start_fill σ semi b).symm
  | _ =>
    simp only [step, Mode.fill, Cur.fill]
    repeat' split
    all_goals first
      | (rw [fillR_emit, start_fill σ]; rfl)
      | (rw [start_fill σ]; done)
      | (simp [fillR, Mode.fill, Cur.fill, Tok.fill, fill_append, fill_cons_byte]; done)
      | (simp [fillR, Mode.fill, Cur.fill, Tok.fill, fill_append, fill_cons_byte]; rfl)

theorem run_word (semi : Bool) (s : Frag) (b : Bytes) (h : ∀ x ∈ b, isWordChar x = true) : run ⟨semi, .word s⟩ (ofBytes b) = ([], ⟨semi, .word (s ++ ofBytes b)⟩) := by
  induction b generalizing s with
  | nil => simp [ofBytes, run]
  | cons c cs ih =>
    have h1 : step ⟨semi, .word s⟩ (.byte c) = ([], ⟨semi, .word (s ++ [.byte c])⟩) := by simp [step, h c (List.mem_cons_self ..)]
    show emit (step ⟨semi, .word s⟩ (.byte c)).1 (run (step ⟨semi, .word s⟩ (.byte c)).2 (ofBytes cs)) = _
    rw [h1, emit_nil, ih _ fun x hx => h x (List.mem_cons_of_mem _ hx)]
    simp [ofBytes]

theorem run_name_start (semi : Bool) (b : Bytes) (h : IsWord b) : run ⟨semi, .none⟩ (ofBytes b) = ([], ⟨semi, .word (ofBytes b)⟩) := by
  obtain ⟨c, cs, rfl, hc, hcs⟩ := h
  show emit (start semi (.byte c)).1 (run (start semi (.byte c)).2 (ofBytes cs)) = _
  simp only [start, hc, if_true, emit_nil]
  rw [run_word _ _ _ hcs]; rfl

theorem run_comment (semi : Bool) (b : Bytes) (h : ∀ x ∈ b, x.toNat ≠ 0x0A) : run ⟨semi, .comment⟩ (ofBytes b) = ([], ⟨semi, .comment⟩) := by
  induction b with
  | nil => rfl
  | cons c cs ih =>
    show emit (step ⟨semi, .comment⟩ (.byte c)).1 (run (step ⟨semi, .comment⟩ (.byte c)).2 (ofBytes cs)) = _
    simp only [step, h c (List.mem_cons_self ..), if_false, emit_nil]
    exact ih fun x hx => h x (List.mem_cons_of_mem _ hx)

theorem step_op_letter (semi : Bool) (a c : Byte) (ha : a.toNat ≠ 0x2F) (hc : isLetter c = true) :
    step ⟨semi, .op a⟩ (.byte c) = emit [.op [.byte a]] (start false (.byte c)) := by
  have hr := letter_range hc
  have h1 : isTwo a c = false := by
    simp only [isTwo, List.contains_eq_mem, List.mem_cons, Prod.mk.injEq, List.not_mem_nil, or_false, decide_eq_false_iff_not]; omega
  have h2 : isOpStart c = false := by
    simp only [isOpStart, List.contains_eq_mem, List.mem_cons, List.not_mem_nil, or_false, decide_eq_false_iff_not]; omega
  simp [step, ha, h1, h2]

theorem step_hole (σ : Nat → Bytes) (m : Mode) (i : Nat) (hi : IsWord (σ i)) (h : (step m (.hole i)).2.cur ≠ .bad) :
    run (m.fill σ) (ofBytes (σ i)) = fillR σ (step m (.hole i)) := by
  have hn := hi
  obtain ⟨c, cs, hb, hc, hcs⟩ := hn
  have hall : ∀ x ∈ σ i, isWordChar x = true := by
    rw [hb]; intro x hx
    rcases List.mem_cons.mp hx with rfl | hx
    · exact isLetter_wordChar hc
    · exact hcs x hx
  obtain ⟨semi, cur⟩ := m
  cases cur with
  | none =>
    simp only [Mode.fill, Cur.fill]
    rw [run_name_start _ _ hi]
    simp [step, start, fillR, Mode.fill, Cur.fill, fill_hole]
  | word s =>
    simp only [Mode.fill, Cur.fill]
    rw [run_word _ _ _ hall]
    simp [step, fillR, Mode.fill, Cur.fill, fill_append, fill_hole]
  | num s => simp [step] at h
  | str s => simp [step] at h
  | bad => simp [step] at h
  | op a =>
    by_cases ha : a.toNat = 0x2F
    · simp [step, ha] at h
    · have h1 : run ⟨semi, .op a⟩ (ofBytes (σ i)) = emit [.op [.byte a]] (run ⟨false, .none⟩ (ofBytes (σ i))) := by
        rw [hb]
        show emit (step ⟨semi, .op a⟩ (.byte c)).1 (run (step ⟨semi, .op a⟩ (.byte c)).2 (ofBytes cs)) =
          emit _ (emit (step ⟨false, .none⟩ (.byte c)).1 (run (step ⟨false, .none⟩ (.byte c)).2 (ofBytes cs)))
        rw [step_op_letter _ _ _ ha hc, emit_emit]; rfl
      simp only [Mode.fill, Cur.fill]
      rw [h1, run_name_start _ _ hi]
      simp [step, ha, start, fillR, Mode.fill, Cur.fill, fill_hole, emit, Tok.fill, fill_cons_byte]; rfl
  | comment =>
    simp only [Mode.fill, Cur.fill]
    rw [run_comment]
    · simp [step, fillR, Mode.fill, Cur.fill]
    · intro x hx
      have := wordChar_range (hall x hx)
      omega

/-- Lexing commutes with filling holes by identifiers. -/
theorem run_fill (σ : Nat → Bytes) (s : Frag) (m : Mode) (hs : ∀ i, .hole i ∈ s → IsWord (σ i)) (h : (run m s).2.cur ≠ .bad) :
    run (m.fill σ) (Text.fill σ s) = fillR σ (run m s) := by
  induction s generalizing m with
  | nil => simp [run, Text.fill, fillR]
  | cons c cs ih =>
    have hbad : (step m c).2.cur ≠ .bad := by
      intro hb
      apply h
      simp only [run, emit]
      generalize hx : (step m c).2 = x at hb ⊢
      obtain ⟨b, k⟩ := x
      simp only at hb; subst hb
      rw [run_bad]
    have h2 : (run (step m c).2 cs).2.cur ≠ .bad := by simpa [run, emit] using h
    have ih' := ih _ (fun i hi => hs i (List.mem_cons_of_mem _ hi)) h2
    cases c with
    | byte b =>
      rw [fill_cons_byte]
      simp only [run]
      rw [step_byte σ m b, fillR_emit, ← ih']; rfl
    | hole i =>
      rw [fill_cons_hole, run_append, step_hole σ m i (hs i (List.mem_cons_self ..)) hbad]
      simp only [run]
      rw [fillR_emit, ← ih']; rfl

/-- The same for texts between two tokens. -/
theorem run_fill_between (σ : Nat → Bytes) {s : Frag} {ts : List Tok} {a b : Bool} (h : run ⟨a, .none⟩ s = (ts, ⟨b, .none⟩))
    (hs : ∀ i, .hole i ∈ s → IsWord (σ i)) : run ⟨a, .none⟩ (Text.fill σ s) = (ts.map (Tok.fill σ), ⟨b, .none⟩) := by
  have := run_fill σ s ⟨a, .none⟩ hs (by rw [h]; simp)
  rw [h] at this
  exact this

end TsLex
