import Verif.Gen.Utils

/-! # Facts about the identifier conversions -/

namespace Utils

theorem camelLoop_nil : camelLoop [] = [] := by rw [camelLoop.eq_def]

theorem camelLoop_skip {c : Byte} {rest : Bytes} (h : c = underscore ∧ nextLower rest) :
    camelLoop (c :: rest) = camelLoop rest := by rw [camelLoop.eq_def]; exact if_pos h

theorem camelLoop_dot {rest : Bytes} : camelLoop (dot :: rest) = camelLoop rest := by
  rw [camelLoop.eq_def]; simp [show dot ≠ underscore by decide]

theorem camelLoop_digit {c : Byte} {rest : Bytes} (h : isDigit c = true) :
    camelLoop (c :: rest) = c :: camelLoop rest := by
  have h1 : c ≠ underscore := by rintro rfl; revert h; decide
  have h2 : c ≠ dot := by rintro rfl; revert h; decide
  rw [camelLoop.eq_def]; simp [h1, h2, h]

theorem camelLoop_word {c : Byte} {rest : Bytes} (h1 : ¬ (c = underscore ∧ nextLower rest)) (h2 : c ≠ dot)
    (h3 : isDigit c = false) :
    camelLoop (c :: rest) = (if isLower c then c ^^^ 0x20 else c) ::
      (rest.takeWhile isLower ++ camelLoop (rest.dropWhile isLower)) := by
  rw [camelLoop.eq_def]; simp only [h1, h2, h3, if_false]; rfl

theorem upper_of_lower {c : Byte} : isLower c = true → isUpper (c ^^^ 0x20) = true := by
  revert c; decide

theorem lower_of_upper {c : Byte} : isUpper c = true → isLower (c ^^^ 0x20) = true := by
  revert c; decide

theorem not_lower_word (c : Byte) : isLower (if isLower c then c ^^^ 0x20 else c) = false := by
  revert c; decide

/-- Induction principle that follows the loop. -/
theorem camel_induction {P : Bytes → Prop} (nil : P [])
    (skip : ∀ rest, nextLower rest = true → P rest → P (underscore :: rest))
    (dot : ∀ rest, P rest → P (dot :: rest))
    (digit : ∀ c rest, isDigit c = true → P rest → P (c :: rest))
    (word : ∀ c rest, ¬ (c = underscore ∧ nextLower rest) → c ≠ Utils.dot → isDigit c = false →
      P (rest.dropWhile isLower) → P (c :: rest)) : ∀ s, P s := by
  intro s
  induction hn : s.length using Nat.strongRecOn generalizing s with
  | _ n ih =>
    cases s with
    | nil => exact nil
    | cons c rest =>
      simp only [List.length_cons] at hn
      have hdw := (List.dropWhile_suffix isLower (l := rest)).length_le
      by_cases h1 : c = underscore ∧ nextLower rest
      · rw [h1.1]; exact skip _ h1.2 (ih _ (by omega) _ rfl)
      · by_cases h2 : c = Utils.dot
        · rw [h2]; exact dot _ (ih _ (by omega) _ rfl)
        · cases h3 : isDigit c with
          | true => exact digit _ _ h3 (ih _ (by omega) _ rfl)
          | false => exact word _ _ h1 h2 h3 (ih _ (by omega) _ rfl)

/-- The loop never begins its output with a lower-case letter. -/
theorem camelLoop_head (s : Bytes) : nextLower (camelLoop s) = false := by
  induction s using camel_induction with
  | nil => rw [camelLoop_nil]; rfl
  | skip rest h ih => rw [camelLoop_skip ⟨rfl, h⟩]; exact ih
  | dot rest ih => rw [camelLoop_dot]; exact ih
  | digit c rest h _ =>
    rw [camelLoop_digit h]; simp only [nextLower]
    revert h; revert c; decide
  | word c rest h1 h2 h3 _ => rw [camelLoop_word h1 h2 h3]; exact not_lower_word c

/-- Lower-case letters only follow letters (and characters that are not identifier characters at all). -/
def Joint (a b : Byte) : Prop := isLower b = true → a ≠ underscore ∧ a ≠ dot ∧ isDigit a = false

/-- Neighbours satisfy `Joint`. -/
def Linked : Bytes → Prop
  | [] => True
  | [_] => True
  | a :: b :: t => Joint a b ∧ Linked (b :: t)

theorem Linked.tail {a : Byte} {t : Bytes} (h : Linked (a :: t)) : Linked t := by
  cases t with
  | nil => trivial
  | cons b t => exact h.2

theorem Linked.suffix {s t : Bytes} (h : Linked s) (hs : t <:+ s) : Linked t := by
  obtain ⟨p, rfl⟩ := hs
  induction p with
  | nil => exact h
  | cons a p ih => exact ih h.tail

theorem joint_lower {a b : Byte} (h : isLower a = true) : Joint a b := by
  intro _; revert h; revert a; decide

theorem chain_append_lower {a : Byte} (hab : ∀ b, isLower b = true → Joint a b) (l m : Bytes)
    (hl : ∀ x ∈ l, isLower x = true) (hm : Linked m) (hh : nextLower m = false) :
    Linked (a :: (l ++ m)) := by
  induction l generalizing a with
  | nil =>
    cases m with
    | nil => exact trivial
    | cons x m =>
      refine ⟨?_, hm⟩
      intro h
      simp [nextLower, h] at hh
  | cons y l ih =>
    have hy := hl y (by simp)
    refine ⟨hab y hy, ?_⟩
    exact ih (a := y) (fun b hb => joint_lower hy) (fun x hx => hl x (by simp [hx]))

theorem takeWhile_lower (l : Bytes) : ∀ x ∈ l.takeWhile isLower, isLower x = true := by
  intro x hx
  exact List.all_eq_true.mp (List.all_takeWhile (p := isLower) (l := l)) x hx

theorem camelLoop_chain (s : Bytes) : Linked (camelLoop s) := by
  induction s using camel_induction with
  | nil => rw [camelLoop_nil]; exact trivial
  | skip rest h ih => rw [camelLoop_skip ⟨rfl, h⟩]; exact ih
  | dot rest ih => rw [camelLoop_dot]; exact ih
  | digit c rest h ih =>
    rw [camelLoop_digit h]
    have hh := camelLoop_head rest
    cases hm : camelLoop rest with
    | nil => exact trivial
    | cons x m =>
      rw [hm] at ih hh
      refine ⟨?_, ih⟩
      intro hx; simp [nextLower, hx] at hh
  | word c rest h1 h2 h3 ih =>
    rw [camelLoop_word h1 h2 h3]
    by_cases hu : c = underscore
    · have hnl : nextLower rest = false := by
        cases h : nextLower rest with
        | true => exact absurd ⟨hu, h⟩ h1
        | false => rfl
      have htw : rest.takeWhile isLower = [] := by
        cases rest with
        | nil => rfl
        | cons d r => simp [nextLower] at hnl; simp [hnl]
      rw [htw, List.nil_append]
      have hh := camelLoop_head (rest.dropWhile isLower)
      cases hm : camelLoop (rest.dropWhile isLower) with
      | nil => exact trivial
      | cons x m =>
        rw [hm] at ih hh
        refine ⟨?_, ih⟩
        intro hx; simp [nextLower, hx] at hh
    · refine chain_append_lower ?_ _ _ (takeWhile_lower rest) ih (camelLoop_head _)
      intro b _ _
      clear h1 ih; revert hu h2 h3; revert c; decide

/-- No dot in the output. -/
theorem camelLoop_no_dot (s : Bytes) : dot ∉ camelLoop s := by
  induction s using camel_induction with
  | nil => rw [camelLoop_nil]; simp
  | skip rest h ih => rw [camelLoop_skip ⟨rfl, h⟩]; exact ih
  | dot rest ih => rw [camelLoop_dot]; exact ih
  | digit c rest h ih =>
    rw [camelLoop_digit h]
    simp only [List.mem_cons, not_or]
    exact ⟨by rintro rfl; revert h; decide, ih⟩
  | word c rest h1 h2 h3 ih =>
    rw [camelLoop_word h1 h2 h3]
    simp only [List.mem_cons, List.mem_append, not_or]
    refine ⟨?_, ?_, ih⟩
    · clear h1 ih; revert h2 h3; revert c; decide
    · intro h; have := takeWhile_lower rest _ h; revert this; decide

/-- Upper-case form of an ASCII letter. -/
def toUpper (c : Byte) : Byte := if isLower c then c ^^^ 0x20 else c

/-- A name without regard to case, underscores and dots. -/
def skeleton (s : Bytes) : Bytes := (s.filter fun c => c != underscore && c != dot).map toUpper

theorem skeleton_cons_drop {c : Byte} {s : Bytes} (h : c = underscore ∨ c = dot) : skeleton (c :: s) = skeleton s := by
  rcases h with rfl | rfl <;> simp [skeleton]

theorem skeleton_cons_keep {c : Byte} {s : Bytes} (h1 : c ≠ underscore) (h2 : c ≠ dot) :
    skeleton (c :: s) = toUpper c :: skeleton s := by
  simp [skeleton, h1, h2]

theorem skeleton_append (a b : Bytes) : skeleton (a ++ b) = skeleton a ++ skeleton b := by
  simp [skeleton]

theorem skeleton_camelLoop (s : Bytes) : skeleton (camelLoop s) = skeleton s := by
  induction s using camel_induction with
  | nil => rw [camelLoop_nil]
  | skip rest h ih => rw [camelLoop_skip ⟨rfl, h⟩, ih, skeleton_cons_drop (.inl rfl)]
  | dot rest ih => rw [camelLoop_dot, ih, skeleton_cons_drop (.inr rfl)]
  | digit c rest h ih =>
    have h1 : c ≠ underscore := by rintro rfl; revert h; decide
    have h2 : c ≠ dot := by rintro rfl; revert h; decide
    rw [camelLoop_digit h, skeleton_cons_keep h1 h2, skeleton_cons_keep h1 h2, ih]
  | word c rest h1 h2 h3 ih =>
    rw [camelLoop_word h1 h2 h3]
    have hrest : skeleton (rest.takeWhile isLower ++ camelLoop (rest.dropWhile isLower)) = skeleton rest := by
      rw [skeleton_append, ih, ← skeleton_append, List.takeWhile_append_dropWhile]
    by_cases hu : c = underscore
    · rw [hu, skeleton_cons_drop (.inl rfl), skeleton_cons_drop (.inl (by decide)), hrest]
    · have hk : (if isLower c then c ^^^ 0x20 else c) ≠ underscore ∧ (if isLower c then c ^^^ 0x20 else c) ≠ dot ∧
          toUpper (if isLower c then c ^^^ 0x20 else c) = toUpper c := by
        clear h1 ih hrest; revert h2 h3 hu; revert c; decide
      rw [skeleton_cons_keep hk.1 hk.2.1, skeleton_cons_keep hu h2, hk.2.2, hrest]

theorem skeleton_camelCase (s : Bytes) : skeleton (camelCase s) = skeleton s := by
  cases s with
  | nil => rfl
  | cons c rest =>
    simp only [camelCase]
    split
    · next h => rw [skeleton_camelLoop, skeleton_cons_drop (.inl h)]
    · exact skeleton_camelLoop _

/-- Already converted text is left alone. -/
theorem camelLoop_id (s : Bytes) (hc : Linked s) (hd : dot ∉ s) (hh : nextLower s = false) :
    camelLoop s = s := by
  induction s using camel_induction with
  | nil => exact camelLoop_nil
  | skip rest h ih =>
    cases rest with
    | nil => simp [nextLower] at h
    | cons d r =>
      have := hc.1
      exact absurd rfl (this h).1
  | dot rest ih => simp at hd
  | digit c rest h ih =>
    rw [camelLoop_digit h, ih hc.tail (fun hm => hd (by simp [hm]))]
    cases rest with
    | nil => rfl
    | cons d r =>
      have hj := hc.1
      cases hl : isLower d with
      | false => simp [nextLower, hl]
      | true => have := (hj hl).2.2; rw [h] at this; exact absurd this (by decide)
  | word c rest h1 h2 h3 ih =>
    rw [camelLoop_word h1 h2 h3]
    have hcl : isLower c = false := by simpa [nextLower] using hh
    rw [hcl]
    have hch : Linked (rest.dropWhile isLower) :=
      hc.tail.suffix (List.dropWhile_suffix _)
    have hdd : dot ∉ rest.dropWhile isLower := fun hm => hd (by
      have := (List.dropWhile_suffix isLower (l := rest)).subset hm
      simp [this])
    have hhd : nextLower (rest.dropWhile isLower) = false := by
      cases hx : rest.dropWhile isLower with
      | nil => rfl
      | cons d r =>
        have := List.head_dropWhile_not isLower (l := rest) (by simp [hx])
        simp only [hx, List.head_cons] at this
        exact this
    rw [ih hch hdd hhd]
    simp

/-- All characters satisfy a predicate that the conversion respects. -/
theorem camelLoop_all {p : Byte → Bool} (hp : ∀ c, p c = true → isLower c = true → p (c ^^^ 0x20) = true) (s : Bytes) :
    (∀ c ∈ s, p c = true) → ∀ c ∈ camelLoop s, p c = true := by
  induction s using camel_induction with
  | nil => intro _; rw [camelLoop_nil]; simp
  | skip rest h ih => intro hs; rw [camelLoop_skip ⟨rfl, h⟩]; exact ih fun c hc => hs c (by simp [hc])
  | dot rest ih => intro hs; rw [camelLoop_dot]; exact ih fun c hc => hs c (by simp [hc])
  | digit c rest h ih =>
    intro hs; rw [camelLoop_digit h]
    intro x hx
    rcases List.mem_cons.mp hx with rfl | hx
    · exact hs _ (by simp)
    · exact ih (fun c hc => hs c (by simp [hc])) _ hx
  | word c rest h1 h2 h3 ih =>
    intro hs; rw [camelLoop_word h1 h2 h3]
    intro x hx
    rcases List.mem_cons.mp hx with rfl | hx
    · have := hs c (by simp)
      split
      · next h => exact hp _ this h
      · exact this
    · rcases List.mem_append.mp hx with hx | hx
      · exact hs _ (List.mem_cons_of_mem _ ((List.takeWhile_prefix isLower).subset hx))
      · exact ih (fun c hc => hs _ (List.mem_cons_of_mem _ ((List.dropWhile_suffix isLower).subset hc))) _ hx

/-- Undoes `CamelCase` on style-guide names: each capital becomes an underscore and a small letter. -/
def expand (s : Bytes) : Bytes := s.flatMap fun c => if isUpper c then [underscore, c ^^^ 0x20] else [c]

theorem expand_append (a b : Bytes) : expand (a ++ b) = expand a ++ expand b := by simp [expand]

theorem expand_cons_keep {c : Byte} (h : isUpper c = false) (t : Bytes) : expand (c :: t) = c :: expand t := by
  rw [← List.singleton_append, expand_append]; simp [expand, h]

theorem expand_lower (l : Bytes) (h : ∀ x ∈ l, isLower x = true) : expand l = l := by
  induction l with
  | nil => rfl
  | cons c t ih =>
    have hc : isUpper c = false := by
      have := h c (by simp)
      clear ih h; revert this; revert c; decide
    rw [expand_cons_keep hc, ih fun x hx => h x (by simp [hx])]

/-- Names in the style of the protobuf style guide: small letters and digits, every underscore followed by
a small letter, no digit followed by a small letter. -/
def snakeName : Bytes → Bool
  | [] => true
  | c :: r => (isLower c || (isDigit c && !nextLower r) || (c == underscore && nextLower r)) && snakeName r

theorem snakeName_dropWhile (l : Bytes) (h : snakeName l = true) : snakeName (l.dropWhile isLower) = true := by
  induction l with
  | nil => rfl
  | cons c r ih =>
    simp only [snakeName, Bool.and_eq_true] at h
    cases hl : isLower c with
    | true => simp only [List.dropWhile_cons, hl, if_true]; exact ih h.2
    | false => simp only [List.dropWhile_cons, hl]; simp [snakeName, h.2, h.1]

theorem nextLower_dropWhile (rest : Bytes) : nextLower (rest.dropWhile isLower) = false := by
  cases hx : rest.dropWhile isLower with
  | nil => rfl
  | cons d r =>
    have := List.head_dropWhile_not isLower (l := rest) (by simp [hx])
    simp only [hx, List.head_cons] at this
    exact this

theorem expand_camelLoop (s : Bytes) : snakeName s = true →
    expand (camelLoop s) = if nextLower s then underscore :: s else s := by
  induction s using camel_induction with
  | nil => intro _; rw [camelLoop_nil]; rfl
  | skip rest h ih =>
    intro hs
    simp only [snakeName, Bool.and_eq_true] at hs
    rw [camelLoop_skip ⟨rfl, h⟩, ih hs.2, if_pos h]
    rfl
  | dot rest ih => intro hs; simp [snakeName, show isLower dot = false by decide, show isDigit dot = false by decide, show (dot == underscore) = false by decide] at hs
  | digit c rest h ih =>
    intro hs
    simp only [snakeName, Bool.and_eq_true] at hs
    have hd : isLower c = false ∧ isUpper c = false ∧ c ≠ underscore := by
      clear hs ih; revert h; revert c; decide
    have hnl : nextLower rest = false := by simpa [hd.1, h, hd.2.2] using hs.1
    have := ih hs.2
    rw [hnl] at this
    rw [camelLoop_digit h, expand_cons_keep hd.2.1, this]
    simp [nextLower, hd.1]
  | word c rest h1 h2 h3 ih =>
    intro hs
    simp only [snakeName, Bool.and_eq_true] at hs
    have hl : isLower c = true := by
      have := hs.1
      simp only [h3, Bool.false_and, Bool.or_false, Bool.or_eq_true, Bool.and_eq_true, beq_iff_eq] at this
      exact this.resolve_right h1
    have hdw := ih (snakeName_dropWhile _ hs.2)
    rw [nextLower_dropWhile] at hdw
    have hu : isUpper (c ^^^ 0x20) = true ∧ c ^^^ 0x20 ^^^ 0x20 = c := by
      clear hs ih h1 h2 h3; revert hl; revert c; decide
    rw [camelLoop_word h1 h2 h3, ← List.singleton_append, expand_append, expand_append, hdw,
      expand_lower _ (takeWhile_lower rest)]
    simp only [hl, if_true, nextLower, expand, List.flatMap_cons, hu.1, hu.2, List.flatMap_nil]
    simp

/-! ## SnakeCase -/

theorem snakeLoop_no_upper (s : List Nat) : ∀ (out : List Nat) (b : Bool),
    (∀ c ∈ out, ¬ (0x41 ≤ c ∧ c ≤ 0x5A)) → ∀ c ∈ snakeLoop out b s, ¬ (0x41 ≤ c ∧ c ≤ 0x5A) := by
  induction s with
  | nil => intro out b h; exact h
  | cons x t ih =>
    intro out b h
    simp only [snakeLoop]
    split
    · apply ih
      intro c hc
      rcases List.mem_append.mp hc with hc | hc
      · split at hc
        · rcases List.mem_append.mp hc with hc | hc
          · exact h c hc
          · simp at hc; omega
        · exact h c hc
      · simp at hc; omega
    · apply ih
      intro c hc
      rcases List.mem_append.mp hc with hc | hc
      · exact h c hc
      · simp at hc; subst hc; assumption

theorem snakeLoop_id (s : List Nat) (h : ∀ c ∈ s, ¬ (0x41 ≤ c ∧ c ≤ 0x5A)) : ∀ (out : List Nat) (b : Bool),
    snakeLoop out b s = out ++ s := by
  induction s with
  | nil => intro out b; simp [snakeLoop]
  | cons x t ih =>
    intro out b
    simp only [snakeLoop, if_neg (h x (by simp))]
    rw [ih (fun c hc => h c (by simp [hc]))]; simp

/-- Text without regard to case and underscores. -/
def runeSkeleton (s : List Nat) : List Nat :=
  (s.filter fun c => c != 0x5F).map fun c => if 0x41 ≤ c ∧ c ≤ 0x5A then c + 0x20 else c

theorem runeSkeleton_append (a b : List Nat) : runeSkeleton (a ++ b) = runeSkeleton a ++ runeSkeleton b := by
  simp [runeSkeleton]

theorem snakeLoop_skeleton (s : List Nat) : ∀ (out : List Nat) (b : Bool),
    runeSkeleton (snakeLoop out b s) = runeSkeleton out ++ runeSkeleton s := by
  induction s with
  | nil => intro out b; simp [snakeLoop, runeSkeleton]
  | cons x t ih =>
    intro out b
    have hx : runeSkeleton (x :: t) = runeSkeleton [x] ++ runeSkeleton t := by
      rw [← runeSkeleton_append]; rfl
    simp only [snakeLoop]
    split
    · next h =>
      rw [ih, runeSkeleton_append, hx, List.append_assoc]
      have h1 : runeSkeleton (if out.length > 0 ∧ ¬ b = true then out ++ [0x5F] else out) = runeSkeleton out := by
        split
        · rw [runeSkeleton_append]; simp [runeSkeleton]
        · rfl
      have h2 : runeSkeleton [x - 0x41 + 0x61] = runeSkeleton [x] := by
        have hne : x ≠ 0x5F := by omega
        have hne2 : x - 65 + 97 ≠ 0x5F := by omega
        have hnu : ¬ (0x41 ≤ x - 65 + 97 ∧ x - 65 + 97 ≤ 0x5A) := by omega
        simp only [runeSkeleton, List.filter_cons, List.filter_nil, bne_iff_ne, ne_eq, hne, hne2, not_false_eq_true,
          if_true, List.map_cons, List.map_nil, if_pos h, if_neg hnu]
        congr 1; omega
      rw [h1, h2]
    · rw [ih, runeSkeleton_append, hx, List.append_assoc]

end Utils
