import Verif.Text.Lex

/-!
# The lexer on texts with holes

If a text with holes is split into tokens, then the text in which the holes are filled with identifiers is split into the same
tokens, filled.  So one computation on a text with holes settles all texts that arise from it.
-/

namespace Text

open Utils

/-- An identifier: a letter or underscore, then letters, digits and underscores; no keyword. -/
def IsName (b : Bytes) : Prop := (∃ c cs, b = c :: cs ∧ isLetter c = true ∧ ∀ x ∈ cs, isWordChar x = true) ∧ ofBytes b ∉ keywords

/-! ## Texts one after the other -/

theorem emit_emit (a b : List Tok) (r : List Tok × Mode) : emit a (emit b r) = emit (a ++ b) r := by simp [emit]

theorem emit_nil (r : List Tok × Mode) : emit [] r = r := by simp [emit]

theorem run_append (m : Mode) (s t : Frag) : run m (s ++ t) = emit (run m s).1 (run (run m s).2 t) := by
  induction s generalizing m with
  | nil => simp [run, emit_nil]
  | cons c cs ih => simp only [List.cons_append, run, ih, emit_emit]; simp [emit]

theorem run_seq {m m1 m2 : Mode} {s t : Frag} {a b : List Tok} (h1 : run m s = (a, m1)) (h2 : run m1 t = (b, m2)) :
    run m (s ++ t) = (a ++ b, m2) := by
  rw [run_append, h1]; simp [emit, h2]

/-- Many texts, each between two tokens. -/
theorem run_flatMap {α : Type} {m : Mode} {f : α → Frag} {g : α → List Tok} (l : List α) (h : ∀ x ∈ l, run m (f x) = (g x, m)) :
    run m (l.flatMap f) = (l.flatMap g, m) := by
  induction l with
  | nil => rfl
  | cons x xs ih =>
    simp only [List.flatMap_cons]
    exact run_seq (h x (List.mem_cons_self ..)) (ih fun y hy => h y (List.mem_cons_of_mem _ hy))

/-! ## Filling -/

theorem fill_cons_byte (σ : Nat → Bytes) (b : Byte) (s : Frag) : fill σ (.byte b :: s) = .byte b :: fill σ s := by
  cases s <;> simp [fill]

theorem fill_hole (σ : Nat → Bytes) (i : Nat) : fill σ [.hole i] = ofBytes (σ i) := rfl

theorem fill_cons_hole (σ : Nat → Bytes) (i : Nat) (s : Frag) : fill σ (.hole i :: s) = ofBytes (σ i) ++ fill σ s := by
  cases s with
  | nil => simp [fill]
  | cons c s => simp [fill]

theorem fill_append (σ : Nat → Bytes) (s t : Frag) : fill σ (s ++ t) = fill σ s ++ fill σ t := by
  induction s with
  | nil => rfl
  | cons c s ih => cases c <;> simp [fill_cons_byte, fill_cons_hole, ih]

theorem mem_fill {σ : Nat → Bytes} {s : Frag} {x : Sym} : x ∈ fill σ s ↔ ∃ y ∈ s, match y with
    | .byte b => x = .byte b
    | .hole i => x ∈ ofBytes (σ i) := by
  induction s with
  | nil => simp [fill]
  | cons c s ih => cases c <;> simp [fill_cons_byte, fill_cons_hole, ih]

theorem fill_ofBytes (σ : Nat → Bytes) (b : Bytes) : fill σ (ofBytes b) = ofBytes b := by
  induction b with
  | nil => rfl
  | cons c cs ih => simpa [ofBytes, fill_cons_byte] using ih

theorem ofBytes_append (a b : Bytes) : ofBytes (a ++ b) = ofBytes a ++ ofBytes b := by simp [ofBytes]

theorem ofBytes_inj {a b : Bytes} (h : ofBytes a = ofBytes b) : a = b :=
  (List.map_inj_right (fun _ _ e => by injection e)).mp h

def Cur.fill (σ : Nat → Bytes) : Cur → Cur
  | .word s => .word (Text.fill σ s)
  | .num s => .num (Text.fill σ s)
  | .str s => .str (Text.fill σ s)
  | c => c

def Mode.fill (σ : Nat → Bytes) (m : Mode) : Mode := ⟨m.semi, m.cur.fill σ⟩

/-- Tokens and mode, filled. -/
def fillR (σ : Nat → Bytes) (r : List Tok × Mode) : List Tok × Mode := (r.1.map (Tok.fill σ), r.2.fill σ)

theorem fillR_emit (σ : Nat → Bytes) (a : List Tok) (r : List Tok × Mode) : fillR σ (emit a r) = emit (a.map (Tok.fill σ)) (fillR σ r) := by
  simp [fillR, emit]

/-- `bad` stays. -/
theorem run_bad (s : Frag) (m : Mode) (h : m.cur = .bad) : run m s = ([], m) := by
  induction s with
  | nil => rfl
  | cons c cs ih => simp [run, step, h, ih, emit]

theorem mem_keywords_lower : ∀ w ∈ keywords, ∀ x ∈ w, ∃ b, x = .byte b ∧ isLower b = true := by decide +kernel

theorem keywords_no_hole (w : Frag) (h : w ∈ keywords) (i : Nat) : .hole i ∉ w := by
  intro hi
  obtain ⟨b, e, _⟩ := mem_keywords_lower w h _ hi
  cases e

theorem fill_no_hole (σ : Nat → Bytes) (s : Frag) (h : ∀ i, .hole i ∉ s) : fill σ s = s := by
  induction s with
  | nil => rfl
  | cons c cs ih =>
    cases c with
    | byte b => rw [fill_cons_byte, ih fun i hi => h i (List.mem_cons_of_mem _ hi)]
    | hole i => exact absurd (List.mem_cons_self ..) (h i)

theorem okWord_cases {s : Frag} (h : okWord s = true) : (∀ i, .hole i ∉ s) ∨ (∃ i, s = [.hole i]) ∨ ∃ b, .byte b ∈ s ∧ isLower b = false := by
  simp only [okWord, Bool.or_eq_true, List.all_eq_true, List.any_eq_true, beq_iff_eq] at h
  rcases h with (h | h) | ⟨x, hx, h⟩
  · exact .inl fun i hi => by simpa using h _ hi
  · match s, h with
    | [.byte b], _ => left; simp
    | [.hole i], _ => exact .inr (.inl ⟨i, rfl⟩)
  · cases x with
    | byte b => exact .inr (.inr ⟨b, hx, by simpa using h⟩)
    | hole i => simp at h

theorem mem_fill_byte {σ : Nat → Bytes} {s : Frag} {b : Byte} (h : .byte b ∈ s) : .byte b ∈ fill σ s := by
  exact mem_fill.mpr ⟨_, h, rfl⟩

theorem semiWord_fill {σ : Nat → Bytes} {s : Frag} (hσ : ∀ i, .hole i ∈ s → IsName (σ i)) (h : okWord s = true) : semiWord (fill σ s) = semiWord s := by
  rcases okWord_cases h with h | ⟨i, rfl⟩ | ⟨b, hb, hl⟩
  · rw [fill_no_hole σ s h]
  · rw [fill_hole]
    have h1 : ofBytes (σ i) ∉ keywords := (hσ i (by simp)).2
    have h2 : ([.hole i] : Frag) ∉ keywords := fun h => keywords_no_hole _ h i (by simp)
    simp [semiWord, h1, h2]
  · have h1 : ∀ t : Frag, .byte b ∈ t → t ∉ keywords := by
      intro t ht hk
      obtain ⟨c, e, hc⟩ := mem_keywords_lower t hk _ ht
      injection e with e
      rw [e] at hl; rw [hl] at hc; cases hc
    simp [semiWord, h1 s hb, h1 _ (mem_fill_byte hb)]

theorem okWord_fill {σ : Nat → Bytes} {s : Frag} : okWord (fill σ s) = true := by
  simp only [okWord, Bool.or_eq_true]
  left; left
  simp only [List.all_eq_true]
  intro x hx
  obtain ⟨y, _, hy⟩ := mem_fill.mp hx
  cases y with
  | byte b => simp only at hy; subst hy; rfl
  | hole i => simp only [ofBytes, List.mem_map] at hy; obtain ⟨c, _, rfl⟩ := hy; rfl

/-! ## One symbol -/

theorem start_fill (σ : Nat → Bytes) (semi : Bool) (b : Byte) : fillR σ (start semi (.byte b)) = start semi (.byte b) := by
  simp only [start]
  repeat' split
  all_goals simp [fillR, Mode.fill, Cur.fill, Tok.fill, fill]

/-- The holes of the word that the lexer is reading. -/
def Mode.Names (σ : Nat → Bytes) (m : Mode) : Prop :=
  match m.cur with
  | .word s => ∀ i, .hole i ∈ s → IsName (σ i)
  | _ => True

theorem step_byte (σ : Nat → Bytes) (m : Mode) (b : Byte) (hm : m.Names σ) (h : (step m (.byte b)).2.cur ≠ .bad) :
    step (m.fill σ) (.byte b) = fillR σ (step m (.byte b)) := by
  obtain ⟨semi, cur⟩ := m
  cases cur with
  | none => exact (start_fill σ semi b).symm
  | word s =>
    simp only [step, Mode.fill, Cur.fill] at h ⊢
    by_cases hb : isWordChar b
    · simp [hb, fillR, Mode.fill, Cur.fill, fill_append, fill_cons_byte]; rfl
    · by_cases hw : okWord s
      · simp only [hb, hw, okWord_fill, if_true]
        rw [if_neg (by simp), if_neg (by simp), fillR_emit, semiWord_fill hm hw, start_fill σ]
        rfl
      · simp [hb, hw] at h
  | num s =>
    simp only [step, Mode.fill, Cur.fill] at h ⊢
    split
    · simp [fillR, Mode.fill, Cur.fill, fill_append, fill_cons_byte]; rfl
    · split
      · simp [fillR, Mode.fill, Cur.fill]
      · rw [fillR_emit, start_fill σ]; rfl
  | str s =>
    simp only [step, Mode.fill, Cur.fill] at h ⊢
    split
    · simp [fillR, Mode.fill, Cur.fill, Tok.fill]
    · split
      · simp [fillR, Mode.fill, Cur.fill]
      · simp [fillR, Mode.fill, Cur.fill, fill_append, fill_cons_byte]; rfl
  | op a =>
    simp only [step, Mode.fill, Cur.fill] at h ⊢
    repeat' split
    all_goals first
      | (rw [fillR_emit, start_fill σ]; rfl)
      | simp [fillR, Mode.fill, Cur.fill, Tok.fill, fill]
  | dot =>
    simp only [step, Mode.fill, Cur.fill] at h ⊢
    repeat' split
    all_goals first
      | (rw [fillR_emit, start_fill σ]; rfl)
      | simp [fillR, Mode.fill, Cur.fill]
  | comment =>
    simp only [step, Mode.fill, Cur.fill] at h ⊢
    split
    · rw [start_fill σ]
    · simp [fillR, Mode.fill, Cur.fill]
  | bad => simp [step] at h

theorem run_word (semi : Bool) (s : Frag) (b : Bytes) (h : ∀ x ∈ b, isWordChar x = true) : run ⟨semi, .word s⟩ (ofBytes b) = ([], ⟨semi, .word (s ++ ofBytes b)⟩) := by
  induction b generalizing s with
  | nil => simp [ofBytes, run]
  | cons c cs ih =>
    have h1 : step ⟨semi, .word s⟩ (.byte c) = ([], ⟨semi, .word (s ++ [.byte c])⟩) := by simp [step, h c (List.mem_cons_self ..)]
    show emit (step ⟨semi, .word s⟩ (.byte c)).1 (run (step ⟨semi, .word s⟩ (.byte c)).2 (ofBytes cs)) = _
    rw [h1, emit_nil, ih _ fun x hx => h x (List.mem_cons_of_mem _ hx)]
    simp [ofBytes]

theorem isLetter_wordChar {b : Byte} (h : isLetter b = true) : isWordChar b = true := by simp [isWordChar, h]

theorem wordChar_range {b : Byte} (h : isWordChar b = true) : (0x30 ≤ b.toNat ∧ b.toNat ≤ 0x39) ∨ (0x41 ≤ b.toNat ∧ b.toNat ≤ 0x5A) ∨ b.toNat = 0x5F ∨
    (0x61 ≤ b.toNat ∧ b.toNat ≤ 0x7A) := by
  simp only [isWordChar, isLetter, isLower, isUpper, isDigit, underscore, Bool.or_eq_true, Bool.and_eq_true, decide_eq_true_eq, beq_iff_eq] at h
  rcases h with (((h | h) | h) | h)
  · exact .inr (.inr (.inr h))
  · exact .inr (.inl h)
  · right; right; left; rw [h]; rfl
  · exact .inl h

theorem letter_range {b : Byte} (h : isLetter b = true) : (0x41 ≤ b.toNat ∧ b.toNat ≤ 0x5A) ∨ b.toNat = 0x5F ∨
    (0x61 ≤ b.toNat ∧ b.toNat ≤ 0x7A) := by
  simp only [isLetter, isLower, isUpper, underscore, Bool.or_eq_true, Bool.and_eq_true, decide_eq_true_eq, beq_iff_eq] at h
  rcases h with ((h | h) | h)
  · exact .inr (.inr h)
  · exact .inl h
  · right; left; rw [h]; rfl

theorem run_name_start (semi : Bool) (b : Bytes) (h : IsName b) : run ⟨semi, .none⟩ (ofBytes b) = ([], ⟨semi, .word (ofBytes b)⟩) := by
  obtain ⟨⟨c, cs, rfl, hc, hcs⟩, _⟩ := h
  show emit (start semi (.byte c)).1 (run (start semi (.byte c)).2 (ofBytes cs)) = _
  simp only [start, hc, if_true, emit_nil]
  rw [run_word _ _ _ hcs]; rfl

theorem step_op_letter (semi : Bool) (a c : Byte) (ha : a.toNat ≠ 0x2F) (hc : isLetter c = true) :
    step ⟨semi, .op a⟩ (.byte c) = emit [.op [.byte a]] (start false (.byte c)) := by
  have hr := letter_range hc
  have h1 : isTwo a c = false := by
    simp only [isTwo, List.contains_eq_mem, List.mem_cons, Prod.mk.injEq, List.not_mem_nil, or_false, decide_eq_false_iff_not]; omega
  have h2 : isOpStart c = false := by
    simp only [isOpStart, List.contains_eq_mem, List.mem_cons, List.not_mem_nil, or_false, decide_eq_false_iff_not]; omega
  have h3 : ¬ ((a.toNat = 0x26 ∨ a.toNat = 0x2A) ∧ c = a) := by rintro ⟨h, rfl⟩; omega
  simp [step, ha, h1, h2, h3]

theorem step_dot_letter (semi : Bool) (c : Byte) (hc : isLetter c = true) : step ⟨semi, .dot⟩ (.byte c) = emit [.op go!"."] (start false (.byte c)) := by
  have hr := letter_range hc
  have h1 : isDigit c = false := by simp [isDigit]; omega
  have h2 : c.toNat ≠ 0x2E := by omega
  simp [step, h1, h2]

theorem run_comment (semi : Bool) (b : Bytes) (h : ∀ x ∈ b, x.toNat ≠ 0x0A) : run ⟨semi, .comment⟩ (ofBytes b) = ([], ⟨semi, .comment⟩) := by
  induction b with
  | nil => rfl
  | cons c cs ih =>
    show emit (step ⟨semi, .comment⟩ (.byte c)).1 (run (step ⟨semi, .comment⟩ (.byte c)).2 (ofBytes cs)) = _
    simp only [step, h c (List.mem_cons_self ..), if_false, emit_nil]
    exact ih fun x hx => h x (List.mem_cons_of_mem _ hx)

theorem step_hole (σ : Nat → Bytes) (m : Mode) (i : Nat) (hi : IsName (σ i)) (h : (step m (.hole i)).2.cur ≠ .bad) :
    run (m.fill σ) (ofBytes (σ i)) = fillR σ (step m (.hole i)) := by
  obtain ⟨semi, cur⟩ := m
  have hn := hi
  obtain ⟨⟨c, cs, hb, hc, hcs⟩, _⟩ := hn
  have hall : ∀ x ∈ σ i, isWordChar x = true := by
    rw [hb]; intro x hx
    rcases List.mem_cons.mp hx with rfl | hx
    · exact isLetter_wordChar hc
    · exact hcs x hx
  cases cur with
  | none =>
    simp only [Mode.fill, Cur.fill]
    rw [run_name_start _ _ hi]
    simp [step, start, fillR, Mode.fill, Cur.fill, fill_hole]
  | word s =>
    simp only [Mode.fill, Cur.fill]
    rw [run_word _ _ _ hall]
    simp [step, fillR, Mode.fill, Cur.fill, fill_append, fill_hole]
  | num s => simp [step] at h
  | str s => simp [step] at h
  | op a =>
    by_cases ha : a.toNat = 0x2F
    · simp [step, ha] at h
    · have h1 : run ⟨semi, .op a⟩ (ofBytes (σ i)) = emit [.op [.byte a]] (run ⟨false, .none⟩ (ofBytes (σ i))) := by
        rw [hb]
        show emit (step ⟨semi, .op a⟩ (.byte c)).1 (run (step ⟨semi, .op a⟩ (.byte c)).2 (ofBytes cs)) =
          emit _ (emit (step ⟨false, .none⟩ (.byte c)).1 (run (step ⟨false, .none⟩ (.byte c)).2 (ofBytes cs)))
        rw [step_op_letter _ _ _ ha hc, emit_emit]; rfl
      simp only [Mode.fill, Cur.fill]
      rw [h1, run_name_start _ _ hi]
      simp [step, ha, start, fillR, Mode.fill, Cur.fill, fill_hole, emit, Tok.fill, fill_cons_byte]; rfl
  | dot =>
    have h1 : run ⟨semi, .dot⟩ (ofBytes (σ i)) = emit [.op go!"."] (run ⟨false, .none⟩ (ofBytes (σ i))) := by
      rw [hb]
      show emit (step ⟨semi, .dot⟩ (.byte c)).1 (run (step ⟨semi, .dot⟩ (.byte c)).2 (ofBytes cs)) =
        emit _ (emit (step ⟨false, .none⟩ (.byte c)).1 (run (step ⟨false, .none⟩ (.byte c)).2 (ofBytes cs)))
      rw [step_dot_letter _ _ hc, emit_emit]; rfl
    simp only [Mode.fill, Cur.fill]
    rw [h1, run_name_start _ _ hi]
    simp [step, start, fillR, Mode.fill, Cur.fill, fill_hole, emit, Tok.fill, fill_cons_byte]; rfl
  | comment =>
    simp only [Mode.fill, Cur.fill]
    rw [run_comment]
    · simp [step, fillR, Mode.fill, Cur.fill]
    · intro x hx
      have := wordChar_range (hall x hx)
      omega
  | bad => simp [step] at h

/-! ## A text -/

theorem start_names (σ : Nat → Bytes) (semi : Bool) (b : Byte) : (start semi (.byte b)).2.Names σ := by
  simp only [start]
  repeat' split
  all_goals simp [Mode.Names]

theorem step_names (σ : Nat → Bytes) (m : Mode) (c : Sym) (hm : m.Names σ) (hc : ∀ i, c = .hole i → IsName (σ i)) : (step m c).2.Names σ := by
  obtain ⟨semi, cur⟩ := m
  cases c with
  | byte b =>
    cases cur with
    | none => exact start_names σ semi b
    | word s =>
      simp only [step]
      repeat' split
      · simp only [Mode.Names, List.mem_append, List.mem_singleton] at hm ⊢
        rintro i (hi | hi)
        · exact hm i hi
        · cases hi
      · exact start_names σ _ b
      · trivial
    | _ =>
      simp only [step]
      repeat' split
      all_goals first | exact start_names σ _ b | trivial
  | hole i =>
    cases cur with
    | word s =>
      simp only [step, Mode.Names, List.mem_append, List.mem_singleton] at hm ⊢
      rintro j (hj | hj)
      · exact hm j hj
      · injection hj with hj; subst hj; exact hc _ rfl
    | none =>
      simp only [step, start, Mode.Names, List.mem_singleton]
      intro j hj; injection hj with hj; subst hj; exact hc _ rfl
    | dot =>
      simp only [step, start, Mode.Names, emit, List.mem_singleton]
      intro j hj; injection hj with hj; subst hj; exact hc _ rfl
    | op a =>
      simp only [step]
      split
      · trivial
      · simp only [start, Mode.Names, emit, List.mem_singleton]
        intro j hj; injection hj with hj; subst hj; exact hc _ rfl
    | _ => simp [step, Mode.Names]

/-- Lexing commutes with filling holes by identifiers. -/
theorem run_fill (σ : Nat → Bytes) (s : Frag) (m : Mode) (hm : m.Names σ) (hs : ∀ i, .hole i ∈ s → IsName (σ i)) (h : (run m s).2.cur ≠ .bad) :
    run (m.fill σ) (fill σ s) = fillR σ (run m s) := by
  induction s generalizing m with
  | nil => simp [run, fill, fillR]
  | cons c cs ih =>
    have hbad : (step m c).2.cur ≠ .bad := by
      intro hb
      apply h
      simp [run, run_bad cs _ hb, emit, hb]
    have hnames := step_names σ m c hm (fun i e => hs i (by simp [e]))
    have h2 : (run (step m c).2 cs).2.cur ≠ .bad := by simpa [run, emit] using h
    have ih' := ih _ hnames (fun i hi => hs i (List.mem_cons_of_mem _ hi)) h2
    cases c with
    | byte b =>
      rw [fill_cons_byte]
      simp only [run]
      rw [step_byte σ m b hm hbad, fillR_emit, ← ih']; rfl
    | hole i =>
      rw [fill_cons_hole, run_append, step_hole σ m i (hs i (List.mem_cons_self ..)) hbad]
      simp only [run]
      rw [fillR_emit, ← ih']; rfl

/-- The same for texts between two tokens. -/
theorem run_fill_between (σ : Nat → Bytes) {s : Frag} {a b : Bool} {ts : List Tok} (h : run ⟨a, .none⟩ s = (ts, ⟨b, .none⟩))
    (hs : ∀ i, .hole i ∈ s → IsName (σ i)) : run ⟨a, .none⟩ (fill σ s) = (ts.map (Tok.fill σ), ⟨b, .none⟩) := by
  have := run_fill σ s ⟨a, .none⟩ trivial hs (by rw [h]; simp)
  rw [h] at this
  exact this

end Text
