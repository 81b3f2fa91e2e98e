import Verif.Gen.UtilsFacts
import Verif.Gen.UtilsExact

/-! # C46–C48, C57: identifier conversion in the code generators -/

namespace Props
open Utils

/-- The characters of proto names and full names. -/
def nameChar (c : Byte) : Bool := isLower c || isUpper c || isDigit c || c == underscore || c == dot

/-- The characters of identifiers. -/
def identChar (c : Byte) : Bool := isLower c || isUpper c || isDigit c || c == underscore

/-! ## C46 -/

/-- A name that starts with a letter becomes an exported Go identifier: an upper-case letter followed by
identifier characters. -/
theorem C46_exported_identifier (c : Byte) (rest : Bytes) (hname : ∀ x ∈ c :: rest, nameChar x = true)
    (hletter : isLower c = true ∨ isUpper c = true) :
    ∃ (d : Byte) (out : Bytes), camelCase (c :: rest) = d :: out ∧ isUpper d = true ∧
      ∀ x ∈ d :: out, identChar x = true := by
  have hc : c ≠ underscore ∧ c ≠ dot ∧ isDigit c = false ∧
      isUpper (if isLower c then c ^^^ 0x20 else c) = true := by
    clear hname; revert hletter; revert c; decide
  have hcc : camelCase (c :: rest) = camelLoop (c :: rest) := by simp [camelCase, hc.1]
  have hw := camelLoop_word (c := c) (rest := rest) (fun h => hc.1 h.1) hc.2.1 hc.2.2.1
  refine ⟨_, _, hcc.trans hw, hc.2.2.2, ?_⟩
  rw [← hw]
  intro x hx
  have h1 : nameChar x = true := by
    refine camelLoop_all (p := nameChar) ?_ _ hname x hx
    decide
  have h2 : x ≠ dot := fun h => camelLoop_no_dot (c :: rest) (h ▸ hx)
  clear hw hx hcc; revert h1 h2; revert x; decide

/-- For every string whatsoever: no dot in the result. -/
theorem C46_no_dot (s : Bytes) : dot ∉ camelCase s := by
  cases s with
  | nil => simp [camelCase]
  | cons c rest => simp only [camelCase]; split <;> exact camelLoop_no_dot _

theorem linked_get {s : Bytes} (h : Linked s) (i : Nat) (a b : Byte) (ha : s[i]? = some a)
    (hb : s[i + 1]? = some b) : Joint a b := by
  induction s generalizing i with
  | nil => simp at ha
  | cons x t ih =>
    cases i with
    | zero =>
      cases t with
      | nil => simp at hb
      | cons y t =>
        simp at ha hb
        subst ha; subst hb
        exact h.1
    | succ i => exact ih h.tail i (by simpa using ha) (by simpa using hb)

/-- For every string: in the result no lower-case letter follows an underscore or a digit, and none is in
front. -/
theorem C46_words_capitalised (s : Bytes) :
    (∀ (i : Nat) (a b : Byte), (camelCase s)[i]? = some a → (camelCase s)[i + 1]? = some b →
      isLower b = true → a ≠ underscore ∧ isDigit a = false) ∧
    (∀ a : Byte, (camelCase s)[0]? = some a → isLower a = false) := by
  have key : ∃ t, camelCase s = camelLoop t := by
    cases s with
    | nil => exact ⟨[], by rw [camelLoop_nil]; rfl⟩
    | cons c rest => simp only [camelCase]; split <;> exact ⟨_, rfl⟩
  obtain ⟨t, ht⟩ := key
  rw [ht]
  constructor
  · intro i a b ha hb hl
    have := linked_get (camelLoop_chain t) i a b ha hb hl
    exact ⟨this.1, this.2.2⟩
  · intro a ha
    have := camelLoop_head t
    cases hx : camelLoop t with
    | nil => rw [hx] at ha; simp at ha
    | cons y r => rw [hx] at ha this; simp at ha; subst ha; simpa [nextLower] using this

/-- Converting a second time changes nothing, for names that start with a letter. -/
theorem C46_idempotent (c : Byte) (rest : Bytes) (hletter : isLower c = true ∨ isUpper c = true) :
    camelCase (camelCase (c :: rest)) = camelCase (c :: rest) := by
  have hc : c ≠ underscore ∧ c ≠ dot ∧ isDigit c = false ∧
      isUpper (if isLower c then c ^^^ 0x20 else c) = true := by
    revert hletter; revert c; decide
  have hcc : camelCase (c :: rest) = camelLoop (c :: rest) := by simp [camelCase, hc.1]
  have hw := camelLoop_word (c := c) (rest := rest) (fun h => hc.1 h.1) hc.2.1 hc.2.2.1
  have hid : camelLoop (camelLoop (c :: rest)) = camelLoop (c :: rest) :=
    camelLoop_id _ (camelLoop_chain _) (camelLoop_no_dot _) (camelLoop_head _)
  rw [hcc]
  have hne : (if isLower c then c ^^^ 0x20 else c) ≠ underscore := by
    intro h; have := hc.2.2.2; rw [h] at this; exact absurd this (by decide)
  rw [hw] at hid ⊢
  simp only [camelCase, if_neg hne]
  exact hid

/-- For every string, the result character by character. -/
theorem C46_exact (s : Bytes) : camelCase s = (List.range s.length).flatMap (Spec.camelAt s) := camelCase_exact s

/-- Names that start with an underscore are legal in proto files, but the promise of the doc comment
("_my_field_name_2 becomes XMyFieldName_2", /repo/v2/utils/utils.go 35) is not kept, and the result need not be
an identifier at all: `_1` gives `1` and `_` gives the empty string. -/
theorem C46_leading_underscore :
    camelCase (ascii "_my_field_name_2") = ascii "MyFieldName_2" ∧ camelCase (ascii "_1") = ascii "1" ∧
    camelCase (ascii "_") = [] := by
  refine ⟨?_, ?_, ?_⟩ <;> simp (decide := true) [ascii, camelCase, camelLoop, isLower, List.takeWhile, List.dropWhile]

example : camelCase (ascii "polyglot.v1.user_id2x") = ascii "PolyglotV1UserId2X" := by
  simp (decide := true) [ascii, camelCase, camelLoop, isLower, List.takeWhile, List.dropWhile]

/-! ## C47 -/

/-- Two names with the same CamelCase form agree except for case, underscores and dots: no other
collision is possible, for any strings. -/
theorem C47_collisions_partial (s t : Bytes) (h : camelCase s = camelCase t) : skeleton s = skeleton t := by
  rw [← skeleton_camelCase s, ← skeleton_camelCase t, h]

/-- On names in the style of the style guide (`user_id2`, but not `a1b` or `a_1`) the conversion is
injective. -/
theorem C47_style_guide_injective_partial (s t : Bytes) (hs : snakeName s = true) (ht : snakeName t = true)
    (hs1 : nextLower s = true) (ht1 : nextLower t = true) (h : camelCase s = camelCase t) : s = t := by
  have key : ∀ u : Bytes, nextLower u = true → camelCase u = camelLoop u := by
    intro u hu
    cases u with
    | nil => rw [camelLoop_nil]; rfl
    | cons c r =>
      have : c ≠ underscore := by
        rintro rfl; exact absurd (show isLower underscore = true from hu) (by decide)
      simp [camelCase, this]
  have h1 := expand_camelLoop s hs
  have h2 := expand_camelLoop t ht
  rw [← key s hs1, if_pos hs1] at h1
  rw [← key t ht1, if_pos ht1] at h2
  rw [h, h2] at h1
  exact (List.cons.inj h1).2.symm

/-- In general it is not injective: the fields `a_b` and `AB` of one message, the fields `a1b` and
`a1_b`, and the messages `p.A.B` and `p.AB` of one package get the same name, and the generated Go code does
not compile. -/
theorem C47_false_in_general :
    camelCase (ascii "a_b") = camelCase (ascii "AB") ∧ ascii "a_b" ≠ ascii "AB" ∧
    camelCase (ascii "a1b") = camelCase (ascii "a1_b") ∧ camelCase (ascii "p.A.B") = camelCase (ascii "p.AB") := by
  refine ⟨?_, by decide, ?_, ?_⟩ <;> simp (decide := true) [ascii, camelCase, camelLoop, isLower, List.takeWhile, List.dropWhile]

/-- Meeting the hypotheses of the injectivity theorem. -/
example : snakeName (ascii "user_id2_x") = true ∧ nextLower (ascii "user_id2_x") = true := by decide

/-! ## C48 -/

/-- No upper-case ASCII letter remains. -/
theorem C48_no_upper_case (s : List Nat) : ∀ c ∈ snakeCase s, ¬ (0x41 ≤ c ∧ c ≤ 0x5A) :=
  snakeLoop_no_upper s [] false (by simp)

/-- Applying it twice is applying it once. -/
theorem C48_idempotent (s : List Nat) : snakeCase (snakeCase s) = snakeCase s := by
  rw [show snakeCase (snakeCase s) = snakeLoop [] false (snakeCase s) from rfl,
    snakeLoop_id _ (C48_no_upper_case s)]; rfl

/-- Only case and underscores change. -/
theorem C48_keeps_letters (s : List Nat) : runeSkeleton (snakeCase s) = runeSkeleton s := by
  rw [show snakeCase s = snakeLoop [] false s from rfl, snakeLoop_skeleton]; rfl

/-- Names without upper-case letters (the style of proto fields) are unchanged, so different fields keep
different names. -/
theorem C48_style_guide_unchanged (s : List Nat) (h : ∀ c ∈ s, ¬ (0x41 ≤ c ∧ c ≤ 0x5A)) : snakeCase s = s := by
  rw [show snakeCase s = snakeLoop [] false s from rfl, snakeLoop_id _ h]; rfl

/-- For every string, the result rune by rune: underscores are put exactly in front of runs of capitals inside the name. -/
theorem C48_exact (s : List Nat) : snakeCase s = (List.range s.length).flatMap (Spec.snakeAt s) := snakeCase_exact s

/-- Consecutive capitals are kept together, so `userID` and `userId` collide. -/
example : snakeCase ("userID".toList.map Char.toNat) = "user_id".toList.map Char.toNat ∧
    snakeCase ("userId".toList.map Char.toNat) = "user_id".toList.map Char.toNat := by decide

/-! ## C57 -/

/-- `LowercaseCamelCase` and `FirstLowerCase` (TypeScript field names) change at most the case of the first
letter: they agree, keep the length and all other characters, and two names of one message collide only if
they differ just in the case of the first letter. -/
theorem C57_first_letter_only (c d : Byte) (s t : Bytes) :
    firstLowerCase (c :: s) = lowercaseCamelCase (c :: s) ∧
    (lowercaseCamelCase (c :: s)).tail = s ∧
    (∀ x, (lowercaseCamelCase (c :: s)).head? = some x → isUpper x = false) ∧
    (lowercaseCamelCase (c :: s) = lowercaseCamelCase (d :: t) → s = t ∧ toUpper c = toUpper d) := by
  refine ⟨rfl, rfl, ?_, ?_⟩
  · intro x hx
    simp only [lowercaseCamelCase, List.head?_cons, Option.some.injEq] at hx
    subst hx
    clear s t d; revert c; decide
  · intro h
    simp only [lowercaseCamelCase, List.cons.injEq] at h
    refine ⟨h.2, ?_⟩
    have h1 : ∀ c : Byte, toUpper (if isUpper c then c ^^^ 0x20 else c) = toUpper c := by decide
    rw [← h1 c, h.1, h1 d]

/-- Exactly: an upper-case first letter becomes the lower-case one. -/
theorem C57_exact (c : Byte) (s : Bytes) :
    lowercaseCamelCase (c :: s) = (if Spec.upperCase c then c + 0x20 else c) :: s ∧
    firstLowerCase (c :: s) = (if Spec.upperCase c then c + 0x20 else c) :: s := by
  have h : (if isUpper c then c ^^^ 0x20 else c) = (if Spec.upperCase c then c + 0x20 else c) := by
    clear s; revert c; decide
  exact ⟨by rw [lowercaseCamelCase, h], by rw [firstLowerCase, h]⟩

example : lowercaseCamelCase (ascii "UserId") = ascii "userId" := by decide

end Props
