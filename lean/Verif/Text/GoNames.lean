import Verif.Text.GoPrintTop
import Verif.Gen.PackageFacts

/-!
# From names of a proto file to names of the generated program
-/

namespace Tmpl

open Utils

variable {V : Type}

/-! ## More fuel does not change the text -/

theorem concat_mono {α : Type} {f g : α → Option Bytes} (h : ∀ x t, f x = some t → g x = some t) (xs : List α) :
    ∀ t, concat (xs.map f) = some t → concat (xs.map g) = some t := by
  induction xs with
  | nil => exact fun t ht => ht
  | cons x xs ih =>
    intro t ht
    simp only [List.map_cons] at ht ⊢
    cases hx : f x with
    | none => rw [hx] at ht; simp [concat] at ht
    | some a =>
      rw [hx] at ht
      rw [h x a hx]
      simp only [concat, Option.map_eq_some_iff] at ht ⊢
      obtain ⟨u, hu, rfl⟩ := ht
      exact ⟨u, ih u hu, rfl⟩

theorem exec_mono (L : Lang V) {call call' : Nat → V → Option Bytes} (h : ∀ n v t, call n v = some t → call' n v = some t) (b : Body) :
    ∀ (env : Env V) (dot : V) (t : Bytes), exec L call b env dot = some t → exec L call' b env dot = some t := by
  induction b with
  | nil => intro env dot t ht; exact ht
  | text s r ih =>
    intro env dot t ht
    simp only [exec, Option.bind_eq_bind, Option.bind_eq_some_iff] at ht ⊢
    obtain ⟨u, hu, he⟩ := ht
    exact ⟨u, ih _ _ _ hu, he⟩
  | action e r ih =>
    intro env dot t ht
    simp only [exec, Option.bind_eq_bind, Option.bind_eq_some_iff] at ht ⊢
    obtain ⟨v, hv, a, ha, u, hu, he⟩ := ht
    exact ⟨v, hv, a, ha, u, ih _ _ _ hu, he⟩
  | assign v e r ih =>
    intro env dot t ht
    simp only [exec, Option.bind_eq_bind, Option.bind_eq_some_iff] at ht ⊢
    obtain ⟨a, ha, hu⟩ := ht
    exact ⟨a, ha, ih _ _ _ hu⟩
  | ite e p q r ihp ihq ih =>
    intro env dot t ht
    simp only [exec, Option.bind_eq_bind, Option.bind_eq_some_iff] at ht ⊢
    obtain ⟨a, ha, ht⟩ := ht
    refine ⟨a, ha, ?_⟩
    by_cases hb : L.truth a
    · rw [if_pos hb] at ht ⊢
      simp only [Option.bind_eq_some_iff] at ht ⊢
      obtain ⟨c, hc, u, hu, he⟩ := ht
      exact ⟨c, ihp _ _ _ hc, u, ih _ _ _ hu, he⟩
    · rw [if_neg hb] at ht ⊢
      simp only [Option.bind_eq_some_iff] at ht ⊢
      obtain ⟨c, hc, u, hu, he⟩ := ht
      exact ⟨c, ihq _ _ _ hc, u, ih _ _ _ hu, he⟩
  | range i v e c r ihc ih =>
    intro env dot t ht
    simp only [exec, Option.bind_eq_bind, Option.bind_eq_some_iff] at ht ⊢
    obtain ⟨w, hw, xs, hxs, a, ha, u, hu, he⟩ := ht
    refine ⟨w, hw, xs, hxs, a, concat_mono (fun x t ht => ihc _ _ _ ht) xs a ha, u, ih _ _ _ hu, he⟩
  | template n e r ih =>
    intro env dot t ht
    simp only [exec, Option.bind_eq_bind, Option.bind_eq_some_iff] at ht ⊢
    obtain ⟨w, hw, a, ha, u, hu, he⟩ := ht
    exact ⟨w, hw, a, h _ _ _ ha, u, ih _ _ _ hu, he⟩

theorem run_mono (L : Lang V) (defs : List (Nat × Body)) {k m : Nat} (hkm : k ≤ m) :
    ∀ (n : Nat) (v : V) (t : Bytes), run L defs k n v = some t → run L defs m n v = some t := by
  induction k generalizing m with
  | zero => intro n v t ht; simp [run] at ht
  | succ k ih =>
    obtain ⟨m, rfl⟩ : ∃ m', m = m' + 1 := ⟨m - 1, by omega⟩
    intro n v t ht
    simp only [run, Option.bind_eq_bind, Option.bind_eq_some_iff] at ht ⊢
    obtain ⟨b, hb, he⟩ := ht
    exact ⟨b, hb, exec_mono L (ih (by omega)) _ _ _ _ he⟩

end Tmpl

namespace GoText

open Utils Tmpl Text
open Gen (PKind)
open Package (EnumD qualify)

variable {lib : Lib}

theorem generate_mono {version : Bytes} {f : FileD} {k m : Nat} {t : Bytes} (hkm : k ≤ m) (h : generate version k f = some t) :
    generate version m f = some t :=
  exec_mono lang (run_mono lang GoTempl.defs hkm) _ _ _ _ h

/-- The text that the generator produces for a file, if any: the template files are parsed, and `base.templ` is executed on the
descriptors (generator.go 40-64, 113-128). -/
def Generates [Lib] (version : Bytes) (f : FileD) (t : Bytes) : Prop :=
  ∃ defs body fuel, GoTempl.parsed = some defs ∧ Tmpl.parseBody GoTempl.baseSrc = some body ∧
    Tmpl.exec lang (Tmpl.run lang defs fuel) body [(0, .data (data version f))] (.data (data version f)) = some t

theorem generates_of {version : Bytes} {f : FileD} {t : Bytes} {fuel : Nat} (h : generate version fuel f = some t) : Generates version f t :=
  ⟨_, _, fuel, GoTempl.parsed_eq, GoTempl.base_parses, h⟩

theorem Generates.fuel {version : Bytes} {f : FileD} {t : Bytes} (h : Generates version f t) : ∃ fuel, generate version fuel f = some t := by
  obtain ⟨defs, body, k, h1, h2, h3⟩ := h
  rw [GoTempl.parsed_eq] at h1
  rw [GoTempl.base_parses] at h2
  cases h1
  cases h2
  exact ⟨k, h3⟩

theorem Generates.unique {version : Bytes} {f : FileD} {t u : Bytes} (h1 : Generates version f t) (h2 : Generates version f u) : t = u := by
  obtain ⟨k, hk⟩ := h1.fuel
  obtain ⟨m, hm⟩ := h2.fuel
  have a := generate_mono (Nat.le_max_left k m) hk
  have b := generate_mono (Nat.le_max_right k m) hm
  rw [a] at b
  exact Option.some.inj b

/-! ## Names -/

/-- protobuf language specification, "Identifiers": a letter, then letters, digits and underscores. -/
def IsIdent (s : Bytes) : Prop := ∃ c cs, s = c :: cs ∧ (isLower c = true ∨ isUpper c = true) ∧ ∀ x ∈ cs, isWordChar x = true

/-- "fullIdent": identifiers separated by dots. -/
inductive IsDotted : Bytes → Prop where
  | one {s : Bytes} : IsIdent s → IsDotted s
  | more {s t : Bytes} : IsIdent s → IsDotted t → IsDotted (s ++ dot :: t)

theorem IsDotted.snoc {s t : Bytes} (hs : IsDotted s) (ht : IsIdent t) : IsDotted (s ++ dot :: t) := by
  induction hs with
  | one h => exact .more h (.one ht)
  | more h _ ih => rw [List.append_assoc]; exact .more h ih

theorem IsDotted.qualify {s t : Bytes} (hs : s = [] ∨ IsDotted s) (ht : IsIdent t) : IsDotted (qualify s t) := by
  unfold Package.qualify
  by_cases h : s = []
  · rw [if_pos h]; exact .one ht
  · rw [if_neg h]; exact (hs.resolve_left h).snoc ht

theorem IsIdent.wordChar {s : Bytes} (h : IsIdent s) : ∀ x ∈ s, isWordChar x = true := by
  obtain ⟨c, cs, rfl, hc, hcs⟩ := h
  intro x hx
  rcases List.mem_cons.mp hx with rfl | hx
  · rcases hc with h | h <;> simp [isWordChar, isLetter, h]
  · exact hcs x hx

theorem IsDotted.chars {s : Bytes} (h : IsDotted s) : ∀ x ∈ s, isWordChar x = true ∨ x = dot := by
  induction h with
  | one h => exact fun x hx => .inl (h.wordChar x hx)
  | more h _ ih =>
    intro x hx
    rcases List.mem_append.mp hx with hx | hx
    · exact .inl (h.wordChar x hx)
    · rcases List.mem_cons.mp hx with rfl | hx
      · exact .inr rfl
      · exact ih x hx

theorem IsDotted.head {s : Bytes} (h : IsDotted s) : ∃ c cs, s = c :: cs ∧ (isLower c = true ∨ isUpper c = true) := by
  cases h with
  | one h => obtain ⟨c, cs, rfl, hc, _⟩ := h; exact ⟨c, cs, rfl, hc⟩
  | more h _ => obtain ⟨c, cs, rfl, hc, _⟩ := h; exact ⟨c, _, rfl, hc⟩

theorem wordChar_upper : ∀ c : Byte, isLower c = true → isWordChar (c ^^^ 0x20) = true := by decide +kernel
theorem wordChar_lower : ∀ c : Byte, isLower c = true → isWordChar c = true := by decide +kernel

theorem camelLoop_chars (s : Bytes) (h : ∀ x ∈ s, isWordChar x = true ∨ x = dot) : ∀ x ∈ camelLoop s, isWordChar x = true := by
  induction hn : s.length using Nat.strongRecOn generalizing s with
  | _ n ih =>
    cases s with
    | nil => simp [camelLoop]
    | cons c rest =>
      subst hn
      have hrest : ∀ x ∈ rest, isWordChar x = true ∨ x = dot := fun x hx => h x (List.mem_cons_of_mem _ hx)
      have ihr := ih rest.length (by simp) rest hrest rfl
      rw [camelLoop]
      split
      · exact ihr
      split
      · exact ihr
      rename_i h1 h2
      have hc : isWordChar c = true := (h c (List.mem_cons_self ..)).resolve_right h2
      split
      · intro x hx
        rcases List.mem_cons.mp hx with rfl | hx
        · exact hc
        · exact ihr x hx
      · intro x hx
        rcases List.mem_cons.mp hx with rfl | hx
        · split
          · exact wordChar_upper _ ‹_›
          · exact hc
        rcases List.mem_append.mp hx with hx | hx
        · have := List.all_takeWhile (p := isLower) (l := rest)
          exact wordChar_lower _ (List.all_eq_true.mp this x hx)
        · refine ih (rest.dropWhile isLower).length ?_ _ ?_ rfl x hx
          · have := (List.dropWhile_suffix isLower (l := rest)).length_le
            simp only [List.length_cons]; omega
          · exact fun y hy => hrest y ((List.dropWhile_suffix isLower).subset hy)

theorem toUpper_upper : ∀ c : Byte, isLower c = true ∨ isUpper c = true → isUpper (toUpper c) = true := by decide +kernel

/-- No keyword begins with an upper-case letter. -/
theorem not_keyword_upper {c : Byte} {cs : Bytes} (h : isUpper c = true) : ofBytes (c :: cs) ∉ keywords := by
  have key : ∀ k ∈ keywords, ∀ b, k.head? = some (.byte b) → isUpper b = false := by
    intro k hk
    simp only [keywords, List.mem_cons, List.not_mem_nil, or_false] at hk
    rcases hk with h|h|h|h|h|h|h|h|h|h|h|h|h|h|h|h|h|h|h|h|h|h|h|h|h <;> subst h <;> intro b hb <;>
      (simp only [List.head?_cons, Option.some.injEq, Sym.byte.injEq] at hb; subst hb; decide)
  intro hm
  have := key _ hm c rfl
  rw [h] at this
  cases this

/-- A dotted name becomes an identifier. -/
theorem isName_camelCase {s : Bytes} (h : IsDotted s) : IsName (camelCase s) := by
  obtain ⟨c, cs, rfl, hc⟩ := h.head
  obtain ⟨out, ho⟩ := Package.camelCase_cons cs hc
  have hcc : camelCase (c :: cs) = camelLoop (c :: cs) := by
    have : c ≠ underscore := by rintro rfl; revert hc; decide
    simp [camelCase, this]
  have hall := camelLoop_chars _ h.chars
  rw [← hcc, ho] at hall
  rw [ho]
  have hu := toUpper_upper c hc
  refine ⟨⟨_, _, rfl, ?_, fun x hx => hall x (List.mem_cons_of_mem _ hx)⟩, not_keyword_upper hu⟩
  simp [isLetter, hu]

theorem keyword_lower : ∀ k ∈ keywords, ∀ x ∈ k, ∃ b, x = .byte b ∧ isLower b = true := by
  intro k hk
  simp only [keywords, List.mem_cons, List.not_mem_nil, or_false] at hk
  rcases hk with h|h|h|h|h|h|h|h|h|h|h|h|h|h|h|h|h|h|h|h|h|h|h|h|h <;> subst h <;> intro x hx <;>
    (simp only [List.mem_cons, List.not_mem_nil, or_false] at hx; 
     repeat (first | (rcases hx with hx | hx; (subst hx; exact ⟨_, rfl, by decide⟩)) | (subst hx; exact ⟨_, rfl, by decide⟩)))

theorem digit_not_lower : ∀ c : Byte, isDigit c = true → isLower c = false := by decide +kernel
theorem lower_flip : ∀ c : Byte, isLower c = true → isLower (c ^^^ 0x20) = false := by decide +kernel

/-- A converted name begins with no lower-case letter. -/
theorem camelLoop_head (s : Bytes) : ∀ c cs, camelLoop s = c :: cs → isLower c = false := by
  induction hn : s.length using Nat.strongRecOn generalizing s with
  | _ n ih =>
    cases s with
    | nil => simp [camelLoop]
    | cons c rest =>
      subst hn
      have ihr := ih rest.length (by simp) rest rfl
      rw [camelLoop]
      split
      · exact ihr
      split
      · exact ihr
      split
      · intro x xs h
        simp only [List.cons.injEq] at h
        obtain ⟨rfl, _⟩ := h
        exact digit_not_lower _ ‹_›
      · intro x xs h
        simp only [List.cons.injEq] at h
        obtain ⟨rfl, _⟩ := h
        split
        · exact lower_flip _ ‹_›
        · rename_i hl; simpa using hl

theorem camelLoop_ne_nil {s : Bytes} (hs : IsDotted s) : camelLoop s ≠ [] := by
  obtain ⟨c, cs, rfl, hc⟩ := hs.head
  obtain ⟨out, ho⟩ := Package.camelCase_cons cs hc
  have hcc : camelCase (c :: cs) = camelLoop (c :: cs) := by
    have : c ≠ underscore := by rintro rfl; revert hc; decide
    simp [camelCase, this]
  rw [← hcc, ho]; simp

theorem dot_not_word : isWordChar dot = false := by decide +kernel

theorem IsDotted.after_dot {t : Bytes} (h : IsDotted t) : ∀ p r, t = p ++ dot :: r → IsDotted r := by
  induction h with
  | one h =>
    rintro p r rfl
    have := h.wordChar dot (by simp)
    rw [dot_not_word] at this; cases this
  | @more s t hs ht ih =>
    intro p r hpr
    rcases List.append_eq_append_iff.mp hpr with ⟨q, hq, hr⟩ | ⟨q, hq, hr⟩
    · cases q with
      | nil => simp only [List.nil_append, List.cons.injEq, true_and] at hr; exact hr ▸ ht
      | cons x q =>
        simp only [List.cons_append, List.cons.injEq] at hr
        exact ih q r hr.2
    · cases q with
      | nil => simp only [List.nil_append, List.cons.injEq, true_and] at hr; exact hr ▸ ht
      | cons x q =>
        simp only [List.cons_append, List.cons.injEq] at hr
        have := hs.wordChar dot (by rw [hq, hr.1]; simp)
        rw [dot_not_word] at this; cases this

theorem lower_other : ∀ c : Byte, isLower c = true → c ≠ underscore ∧ c ≠ dot ∧ isDigit c = false := by decide +kernel

theorem camelLoop_suffix {t p d : Bytes} (h : IsDotted t) (ht : t = p ++ d) (hd : d ≠ []) : camelLoop d ≠ [] := by
  cases d with
  | nil => exact absurd rfl hd
  | cons c r =>
    rw [camelLoop]
    split
    · rename_i hu
      cases r with
      | nil => simp [nextLower] at hu
      | cons x r =>
        have hx : isLower x = true := hu.2
        obtain ⟨h1, h2, h3⟩ := lower_other x hx
        rw [camelLoop, if_neg (fun h => h1 h.1), if_neg h2, h3]
        simp
    split
    · rename_i hc
      exact camelLoop_ne_nil (h.after_dot p r (hc ▸ ht))
    · split <;> simp

/-- The type name of a repeated enum field is an identifier, unless it is a keyword already. -/
theorem isName_elemName {t : Bytes} (h : IsDotted t) (hk : ofBytes t ∉ keywords) : IsName (elemName t) := by
  have hsplit : t.takeWhile isLower ++ t.dropWhile isLower = t := List.takeWhile_append_dropWhile
  refine ⟨?_, ?_⟩
  · have hall : ∀ x ∈ elemName t, isWordChar x = true := by
      intro x hx
      rcases List.mem_append.mp hx with hx | hx
      · exact wordChar_lower _ (List.all_eq_true.mp (List.all_takeWhile (p := isLower) (l := t)) x hx)
      · exact camelLoop_chars _ (fun y hy => h.chars y ((List.dropWhile_suffix isLower).subset hy)) x hx
    suffices hh : ∃ c cs, elemName t = c :: cs ∧ isLetter c = true by
      obtain ⟨c, cs, he, hc⟩ := hh
      exact ⟨c, cs, he, hc, fun x hx => hall x (by rw [he]; exact List.mem_cons_of_mem _ hx)⟩
    obtain ⟨c, cs, rfl, hc⟩ := h.head
    by_cases hl : isLower c = true
    · exact ⟨c, _, by rw [elemName, List.takeWhile_cons_of_pos hl]; rfl, by simp [isLetter, hl]⟩
    · have hu := hc.resolve_left hl
      obtain ⟨out, ho⟩ := Package.camelCase_cons cs hc
      have hcc : camelCase (c :: cs) = camelLoop (c :: cs) := by
        have : c ≠ underscore := by rintro rfl; revert hc; decide
        simp [camelCase, this]
      refine ⟨toUpper c, out, ?_, ?_⟩
      · rw [elemName, List.takeWhile_cons_of_neg hl, List.dropWhile_cons_of_neg hl, ← hcc, ho]; rfl
      · simp [isLetter, toUpper_upper c hc]
  · intro hm
    have hlow := keyword_lower _ hm
    have hnil : camelLoop (t.dropWhile isLower) = [] := by
      cases hcl : camelLoop (t.dropWhile isLower) with
      | nil => rfl
      | cons c cs =>
        obtain ⟨b, hb, hbl⟩ := hlow (.byte c) (by rw [elemName, hcl]; simp [ofBytes])
        have := camelLoop_head _ c cs hcl
        cases hb; rw [hbl] at this; cases this
    have hd : t.dropWhile isLower = [] := by
      by_cases hd : t.dropWhile isLower = []
      · exact hd
      · exact absurd hnil (camelLoop_suffix h hsplit.symm hd)
    rw [elemName, hnil, List.append_nil] at hm
    rw [hd, List.append_nil] at hsplit
    rw [hsplit] at hm
    exact hk hm

/-! ## Files -/

/-- A field as protoc describes it: no group, a map key of a kind that is allowed, and the type of a repeated enum field is
not named like a Go keyword. -/
structure FieldD.Wf (f : FieldD) : Prop where
  name : IsIdent f.name
  kind : f.kind ≠ .group
  type : f.kind = .message ∨ f.kind = .enum → IsDotted f.type
  elem : f.shape = .many → f.kind = .enum → ofBytes f.type ∉ keywords
  key : ∀ kk, f.shape = .map kk → IsKey kk

def EnumWf (e : EnumD) : Prop := IsIdent e.name ∧ ∀ v ∈ e.values, IsIdent v

inductive MsgD.Wf : MsgD → Prop where
  | mk {name : Bytes} {e : Bool} {fs : List FieldD} {es : List EnumD} {ms : List MsgD}
    (name_ok : IsIdent name) (fields : ∀ f ∈ fs, f.Wf) (enums : ∀ x ∈ es, EnumWf x) (messages : ∀ m ∈ ms, m.Wf) :
    MsgD.Wf (.mk name e fs es ms)

/-- A file as protoc describes it; `packageName` is the name of the Go package. -/
structure FileD.Wf (f : FileD) : Prop where
  package : f.package = [] ∨ IsDotted f.package
  goPackage : f.package = [] → IsIdent f.goPackageName
  keyword : ofBytes (packageName f) ∉ keywords
  enums : ∀ x ∈ f.enums, EnumWf x
  messages : ∀ m ∈ f.messages, m.Wf

theorem FieldD.Wf.ok {o : Bytes} {f : FieldD} (ho : IsDotted o) (h : f.Wf) : FieldOk o f where
  name := isName_camelCase (.one h.name)
  kind := h.kind
  type := fun hk => isName_camelCase (h.type hk)
  elem := fun hs hk => isName_elemName (h.type (.inr hk)) (h.elem hs hk)
  key := fun kk hs => ⟨h.key kk hs, isName_camelCase (.qualify (.inr ho) h.name)⟩

theorem EnumWf.ok {s : Bytes} {e : EnumD} (hs : s = [] ∨ IsDotted s) (h : EnumWf e) : EnumOk s e :=
  ⟨isName_camelCase (.qualify hs h.1), fun v hv => isName_camelCase (.qualify hs (h.2 v hv))⟩

theorem MsgD.Wf.ok {m : MsgD} (h : m.Wf) : ∀ {s : Bytes}, (s = [] ∨ IsDotted s) → MsgOk s m := by
  induction h with
  | mk hn hf he _ ih =>
    intro s hs
    have hq := IsDotted.qualify hs hn
    exact .mk (isName_camelCase hq) (fun f hf' => (hf f hf').ok hq) (fun x hx => (he x hx).ok (.inr hq)) (fun m hm => ih m hm (.inr hq))

theorem IsIdent.no_dot {s : Bytes} (h : IsIdent s) : ∀ x ∈ s, x ≠ dot := by
  rintro x hx rfl
  have := h.wordChar _ hx
  rw [dot_not_word] at this; cases this

theorem takeWhile_all {α : Type} (p : α → Bool) (l r : List α) (h : ∀ x ∈ l, p x = true) : (l ++ r).takeWhile p = l ++ r.takeWhile p := by
  induction l with
  | nil => rfl
  | cons x l ih => simp [h x (List.mem_cons_self ..), ih fun y hy => h y (List.mem_cons_of_mem _ hy)]

theorem takeWhile_stop {α : Type} (p : α → Bool) (l r : List α) {a : α} (h : p a = false) : (l ++ a :: r).takeWhile p = l.takeWhile p := by
  induction l with
  | nil => simp [h]
  | cons x l ih => simp only [List.cons_append, List.takeWhile_cons, ih]

theorem lastName_ident {s : Bytes} (h : IsDotted s) : IsIdent (lastName s) := by
  induction h with
  | @one s h =>
    have : lastName s = s := by
      have := takeWhile_all (fun x => decide (x ≠ dot)) s.reverse [] (by intro x hx; simpa using h.no_dot x (List.mem_reverse.mp hx))
      rw [List.append_nil] at this
      rw [lastName, this]; simp
    rw [this]; exact h
  | @more s t hs ht ih =>
    have : lastName (s ++ dot :: t) = lastName t := by
      have h2 := takeWhile_stop (fun x => decide (x ≠ dot)) t.reverse s.reverse (a := dot) (by simp)
      simp only [lastName, List.reverse_append, List.reverse_cons, List.append_assoc, List.singleton_append]
      rw [h2]
    rw [this]; exact ih

theorem FileD.Wf.ok {f : FileD} (h : f.Wf) : FileOk f where
  package := by
    refine ⟨?_, h.keyword⟩
    have key : IsIdent (packageName f) := by
      unfold packageName
      rcases h.package with hp | hp
      · have : lastName f.package = [] := by rw [hp]; rfl
        rw [if_pos this]; exact h.goPackage hp
      · have := lastName_ident hp
        rw [if_neg ?_]
        · exact this
        · obtain ⟨c, cs, hc, _⟩ := this
          rw [hc]; simp
    obtain ⟨c, cs, he, hc, hcs⟩ := key
    refine ⟨c, cs, he, ?_, hcs⟩
    rcases hc with hc | hc <;> simp [isLetter, hc]
  enums := fun x hx => (h.enums x hx).ok h.package
  messages := fun m hm => (h.messages m hm).ok h.package

end GoText
