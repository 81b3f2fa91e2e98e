import Verif.Text.LexFacts

/-!
# Rust source text: the lexical structure

The Rust reference, "Lexical structure", as far as the generated files need it: comments to the end of a line, identifiers and
keywords, lifetimes, decimal numbers, punctuation.  Anything else makes the lexer give up.  Symbols and holes are those of
`Lex.lean`.  `>` is always a token of its own (the Rust grammar splits `>>` where types end), and so are the other characters,
except in `::`, `->` and `..`.
-/

namespace RustLex

open Utils Text

inductive Tok where
  /-- an identifier or a keyword -/
  | word (s : Frag)
  | num (s : Frag)
  /-- a lifetime, without the apostrophe -/
  | life (s : Frag)
  /-- punctuation -/
  | op (s : Frag)
deriving DecidableEq, Repr

def Tok.fill (σ : Nat → Bytes) : Tok → Tok
  | .word s => .word (Text.fill σ s)
  | .num s => .num (Text.fill σ s)
  | .life s => .life (Text.fill σ s)
  | .op s => .op (Text.fill σ s)

/-- What the lexer is in the middle of. -/
inductive Cur where
  | none
  | word (s : Frag)
  | num (s : Frag)
  /-- a number and a dot -/
  | numDot (s : Frag)
  | life (s : Frag)
  /-- `:`, `-`, `.` or `/` -/
  | op (b : Byte)
  /-- in a comment to the end of the line -/
  | comment
  | bad
deriving DecidableEq, Repr

/-- Single characters: `( ) [ ] { } , ; < > & * ? # = !`. -/
def isSingle (b : Byte) : Bool :=
  [0x28, 0x29, 0x5B, 0x5D, 0x7B, 0x7D, 0x2C, 0x3B, 0x3C, 0x3E, 0x26, 0x2A, 0x3F, 0x23, 0x3D, 0x21].contains b.toNat

/-- `:`, `-`, `.` and `/` may begin a longer token. -/
def isOpStart (b : Byte) : Bool := [0x3A, 0x2D, 0x2E, 0x2F].contains b.toNat

/-- `::`, `->` and `..` -/
def isTwo (a b : Byte) : Bool := [(0x3A, 0x3A), (0x2D, 0x3E), (0x2E, 0x2E)].contains (a.toNat, b.toNat)

/-- The first character of a token, or white space. -/
def start : Sym → List Tok × Cur
  | .hole i => ([], .word [.hole i])
  | .byte b =>
    if isLetter b then ([], .word [.byte b])
    else if isDigit b then ([], .num [.byte b])
    else if b.toNat = 0x20 ∨ b.toNat = 0x09 ∨ b.toNat = 0x0D ∨ b.toNat = 0x0A then ([], .none)
    else if b.toNat = 0x27 then ([], .life [])
    else if isOpStart b then ([], .op b)
    else if isSingle b then ([.op [.byte b]], .none)
    else ([], .bad)

/-- Prepend tokens. -/
def emit (ts : List Tok) (r : List Tok × Cur) : List Tok × Cur := (ts ++ r.1, r.2)

/-- One symbol. -/
def step (m : Cur) (c : Sym) : List Tok × Cur :=
  match m with
  | .none => start c
  | .word s =>
    match c with
    | .hole i => ([], .word (s ++ [.hole i]))
    | .byte b => if isWordChar b then ([], .word (s ++ [.byte b])) else emit [.word s] (start c)
  | .num s =>
    match c with
    | .hole _ => ([], .bad)
    | .byte b =>
      if isDigit b then ([], .num (s ++ [.byte b]))
      else if b.toNat = 0x2E then ([], .numDot s)
      else if isLetter b then ([], .bad)
      else emit [.num s] (start c)
  | .numDot s =>
    match c with
    | .hole _ => ([], .bad)
    | .byte b => if b.toNat = 0x2E then ([.num s, .op go!".."], .none) else ([], .bad)
  | .life s =>
    match c with
    | .hole _ => ([], .bad)
    | .byte b =>
      if isLetter b ∨ (isDigit b ∧ s ≠ []) then ([], .life (s ++ [.byte b]))
      else if s = [] ∨ b.toNat = 0x27 then ([], .bad)
      else emit [.life s] (start c)
  | .op a =>
    match c with
    | .hole _ => if a.toNat = 0x2F ∨ a.toNat = 0x2D then ([], .bad) else emit [.op [.byte a]] (start c)
    | .byte b =>
      if a.toNat = 0x2F then (if b.toNat = 0x2F then ([], .comment) else ([], .bad))
      else if isTwo a b then ([.op [.byte a, .byte b]], .none)
      else if a.toNat = 0x2D then ([], .bad)
      else emit [.op [.byte a]] (start c)
  | .comment =>
    match c with
    | .hole _ => ([], .comment)
    | .byte b => if b.toNat = 0x0A then ([], .none) else ([], .comment)
  | .bad => ([], .bad)

/-- The tokens completed while reading a text, and what the lexer is in the middle of after it. -/
def run (m : Cur) : Frag → List Tok × Cur
  | [] => ([], m)
  | c :: cs => emit (step m c).1 (run (step m c).2 cs)

/-- The lexer: the tokens of a text that ends between two tokens. -/
def lex (s : Frag) : Option (List Tok) :=
  match run .none s with
  | (ts, .none) => some ts
  | _ => none

example : lex go!"// c\nfn f<'a>(x: &'a Foo) -> Vec<Vec<u8>> {\n for _ in 0..n_1 { b.decode_u32()?; }\n}\n" = some
    [.word go!"fn", .word go!"f", .op go!"<", .life go!"a", .op go!">", .op go!"(", .word go!"x", .op go!":", .op go!"&", .life go!"a", .word go!"Foo",
     .op go!")", .op go!"->", .word go!"Vec", .op go!"<", .word go!"Vec", .op go!"<", .word go!"u8", .op go!">", .op go!">", .op go!"{",
     .word go!"for", .word go!"_", .word go!"in", .num go!"0", .op go!"..", .word go!"n_1", .op go!"{", .word go!"b", .op go!".", .word go!"decode_u32",
     .op go!"(", .op go!")", .op go!"?", .op go!";", .op go!"}", .op go!"}"] := by
  decide +kernel

/-! ## Filling holes -/

/-- A text that can be an identifier: a letter or underscore, then letters, digits and underscores. -/
def IsWord (b : Bytes) : Prop := ∃ c cs, b = c :: cs ∧ isLetter c = true ∧ ∀ x ∈ cs, isWordChar x = true

theorem emit_nil (r : List Tok × Cur) : emit [] r = r := rfl
theorem emit_emit (a b : List Tok) (r : List Tok × Cur) : emit a (emit b r) = emit (a ++ b) r := by simp [emit]

theorem run_append (m : Cur) (s t : Frag) : run m (s ++ t) = emit (run m s).1 (run (run m s).2 t) := by
  induction s generalizing m with
  | nil => rfl
  | cons c cs ih => simp only [List.cons_append, run, ih, emit, List.append_assoc]

theorem run_seq {m m1 m2 : Cur} {s t : Frag} {ts us : List Tok} (h1 : run m s = (ts, m1)) (h2 : run m1 t = (us, m2)) : run m (s ++ t) = (ts ++ us, m2) := by
  rw [run_append, h1, h2]; rfl

def Cur.fill (σ : Nat → Bytes) : Cur → Cur
  | .word s => .word (Text.fill σ s)
  | .num s => .num (Text.fill σ s)
  | .numDot s => .numDot (Text.fill σ s)
  | .life s => .life (Text.fill σ s)
  | c => c

/-- Tokens and what comes after, filled. -/
def fillR (σ : Nat → Bytes) (r : List Tok × Cur) : List Tok × Cur := (r.1.map (Tok.fill σ), r.2.fill σ)

theorem fillR_emit (σ : Nat → Bytes) (a : List Tok) (r : List Tok × Cur) : fillR σ (emit a r) = emit (a.map (Tok.fill σ)) (fillR σ r) := by
  simp [fillR, emit]

theorem run_bad (s : Frag) : run .bad s = ([], .bad) := by
  induction s with
  | nil => rfl
  | cons c cs ih => simp [run, step, ih, emit]

theorem start_fill (σ : Nat → Bytes) (b : Byte) : fillR σ (start (.byte b)) = start (.byte b) := by
  simp only [start]
  repeat' split
  all_goals simp [fillR, Cur.fill, Tok.fill, Text.fill]

theorem fill_eq_nil {σ : Nat → Bytes} {s : Frag} (h : ∀ i, .hole i ∉ s) : Text.fill σ s = s := fill_no_hole σ s h

/-- A lifetime being read has no holes. -/
def Cur.Plain : Cur → Prop
  | .life s => ∀ i, .hole i ∉ s
  | _ => True

theorem start_plain (c : Sym) : (start c).2.Plain := by
  cases c with
  | hole i => simp [start, Cur.Plain]
  | byte b => simp only [start]; repeat' split
              all_goals simp [Cur.Plain]

theorem step_plain (m : Cur) (c : Sym) (h : m.Plain) : (step m c).2.Plain := by
  cases m <;> cases c <;> simp only [step] <;> repeat' split
  all_goals first
    | exact start_plain _
    | trivial
    | (intro i hi
       rcases List.mem_append.mp hi with hi | hi
       · exact h i hi
       · simp at hi)

theorem step_byte (σ : Nat → Bytes) (m : Cur) (b : Byte) (hp : m.Plain) : step (m.fill σ) (.byte b) = fillR σ (step m (.byte b)) := by
  cases m with
  | none => exact (start_fill σ b).symm
  | bad => simp [step, fillR, Cur.fill]
  | life s =>
    simp only [step, Cur.fill, fill_eq_nil hp]
    have hs : Text.fill σ s = s := fill_eq_nil hp
    repeat' split
    all_goals first
      | (rw [fillR_emit, start_fill σ]; simp [Tok.fill, hs])
      | simp [fillR, Cur.fill, fill_append, hs, Text.fill]
  | _ =>
    simp only [step, Cur.fill]
    repeat' split
    all_goals first
      | (rw [fillR_emit, start_fill σ]; rfl)
      | (simp [fillR, Cur.fill, Tok.fill, fill_append, fill_cons_byte]; done)
      | (simp [fillR, Cur.fill, Tok.fill, fill_append, fill_cons_byte]; rfl)

theorem run_word (s : Frag) (b : Bytes) (h : ∀ x ∈ b, isWordChar x = true) : run (.word s) (ofBytes b) = ([], .word (s ++ ofBytes b)) := by
  induction b generalizing s with
  | nil => simp [ofBytes, run]
  | cons c cs ih =>
    have h1 : step (.word s) (.byte c) = ([], .word (s ++ [.byte c])) := by simp [step, h c (List.mem_cons_self ..)]
    show emit (step (.word s) (.byte c)).1 (run (step (.word s) (.byte c)).2 (ofBytes cs)) = _
    rw [h1, emit_nil, ih _ fun x hx => h x (List.mem_cons_of_mem _ hx)]
    simp [ofBytes]

theorem run_name_start (b : Bytes) (h : IsWord b) : run .none (ofBytes b) = ([], .word (ofBytes b)) := by
  obtain ⟨c, cs, rfl, hc, hcs⟩ := h
  show emit (start (.byte c)).1 (run (start (.byte c)).2 (ofBytes cs)) = _
  simp only [start, hc, if_true, emit_nil]
  rw [run_word _ _ hcs]; rfl

theorem run_comment (b : Bytes) (h : ∀ x ∈ b, x.toNat ≠ 0x0A) : run .comment (ofBytes b) = ([], .comment) := by
  induction b with
  | nil => rfl
  | cons c cs ih =>
    show emit (step .comment (.byte c)).1 (run (step .comment (.byte c)).2 (ofBytes cs)) = _
    simp only [step, h c (List.mem_cons_self ..), if_false, emit_nil]
    exact ih fun x hx => h x (List.mem_cons_of_mem _ hx)

theorem step_op_letter (a c : Byte) (ha : a.toNat ≠ 0x2F) (hb : a.toNat ≠ 0x2D) (hc : isLetter c = true) :
    step (.op a) (.byte c) = emit [.op [.byte a]] (start (.byte c)) := by
  have hr := letter_range hc
  have h1 : isTwo a c = false := by
    simp only [isTwo, List.contains_eq_mem, List.mem_cons, Prod.mk.injEq, List.not_mem_nil, or_false, decide_eq_false_iff_not]; omega
  simp [step, ha, hb, h1]

theorem step_hole (σ : Nat → Bytes) (m : Cur) (i : Nat) (hi : IsWord (σ i)) (h : (step m (.hole i)).2 ≠ .bad) :
    run (m.fill σ) (ofBytes (σ i)) = fillR σ (step m (.hole i)) := by
  have hn := hi
  obtain ⟨c, cs, hb, hc, hcs⟩ := hn
  have hall : ∀ x ∈ σ i, isWordChar x = true := by
    rw [hb]; intro x hx
    rcases List.mem_cons.mp hx with rfl | hx
    · exact isLetter_wordChar hc
    · exact hcs x hx
  cases m with
  | none =>
    simp only [Cur.fill]
    rw [run_name_start _ hi]
    simp [step, start, fillR, Cur.fill, fill_hole]
  | word s =>
    simp only [Cur.fill]
    rw [run_word _ _ hall]
    simp [step, fillR, Cur.fill, fill_append, fill_hole]
  | num s => simp [step] at h
  | numDot s => simp [step] at h
  | life s => simp [step] at h
  | bad => simp [step] at h
  | op a =>
    by_cases ha : a.toNat = 0x2F ∨ a.toNat = 0x2D
    · simp [step, ha] at h
    · rw [not_or] at ha
      have h1 : run (.op a) (ofBytes (σ i)) = emit [.op [.byte a]] (run .none (ofBytes (σ i))) := by
        rw [hb]
        show emit (step (.op a) (.byte c)).1 (run (step (.op a) (.byte c)).2 (ofBytes cs)) =
          emit _ (emit (step .none (.byte c)).1 (run (step .none (.byte c)).2 (ofBytes cs)))
        rw [step_op_letter _ _ ha.1 ha.2 hc, emit_emit]; rfl
      simp only [Cur.fill]
      rw [h1, run_name_start _ hi]
      simp [step, ha, start, fillR, Cur.fill, fill_hole, emit, Tok.fill, fill_cons_byte]; rfl
  | comment =>
    simp only [Cur.fill]
    rw [run_comment]
    · simp [step, fillR, Cur.fill]
    · intro x hx
      have := wordChar_range (hall x hx)
      omega

/-- Lexing commutes with filling holes by identifiers. -/
theorem run_fill (σ : Nat → Bytes) (s : Frag) (m : Cur) (hp : m.Plain) (hs : ∀ i, .hole i ∈ s → IsWord (σ i)) (h : (run m s).2 ≠ .bad) :
    run (m.fill σ) (Text.fill σ s) = fillR σ (run m s) := by
  induction s generalizing m with
  | nil => simp [run, Text.fill, fillR]
  | cons c cs ih =>
    have hbad : (step m c).2 ≠ .bad := by
      intro hb
      apply h
      simp [run, hb, run_bad cs, emit]
    have h2 : (run (step m c).2 cs).2 ≠ .bad := by simpa [run, emit] using h
    have ih' := ih _ (step_plain m c hp) (fun i hi => hs i (List.mem_cons_of_mem _ hi)) h2
    cases c with
    | byte b =>
      rw [fill_cons_byte]
      simp only [run]
      rw [step_byte σ m b hp, fillR_emit, ← ih']; rfl
    | hole i =>
      rw [fill_cons_hole, run_append, step_hole σ m i (hs i (List.mem_cons_self ..)) hbad]
      simp only [run]
      rw [fillR_emit, ← ih']; rfl

/-- The same for texts between two tokens. -/
theorem run_fill_between (σ : Nat → Bytes) {s : Frag} {ts : List Tok} (h : run .none s = (ts, .none))
    (hs : ∀ i, .hole i ∈ s → IsWord (σ i)) : run .none (Text.fill σ s) = (ts.map (Tok.fill σ), .none) := by
  have := run_fill σ s .none trivial hs (by rw [h]; simp)
  rw [h] at this
  exact this

end RustLex
