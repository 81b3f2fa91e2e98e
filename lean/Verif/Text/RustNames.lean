import Verif.Text.RustPrintTop
import Verif.Text.GoNames
import Verif.Gen.RustPackageFacts

/-!
# Names in generated Rust files; what the Rust generator prints is unique
-/

namespace RustText

open Utils Tmpl Text RustAst RustLex
open Gen (PKind)
open GoText (FieldD MsgD FileD IsIdent IsDotted EnumWf)
open Package (EnumD qualify)
open Package.Rust (World Dependencies DependencyAnalysis)

/-! ## The generator -/

theorem generate_mono {privacy version : Bytes} {deps : Dependencies} {f : FileD} {k m : Nat} {t : Bytes} (hkm : k ≤ m)
    (h : generate privacy version deps k f = some t) : generate privacy version deps m f = some t :=
  exec_mono (lang privacy) (run_mono (lang privacy) RustTempl.defs hkm) _ _ _ _ h

/-- The text that the generator gives to `rustfmt` for a file, if any: the template files are parsed, the dependencies of the file are
found, and `base.templ` is executed on the descriptors (generator.go 59-84, 134-154).  `W` has the message types that the fields
refer to. -/
def Generates (privacy : Bytes) (W : World) (version : Bytes) (f : FileD) (t : Bytes) : Prop :=
  ∃ defs body fuel depth deps, RustTempl.parsed = some defs ∧ Tmpl.parseBody RustTempl.baseSrc = some body ∧
    DependencyAnalysis W depth f.erase = some deps ∧
    Tmpl.exec (lang privacy) (Tmpl.run (lang privacy) defs fuel) body [(0, .data (data version deps f))] (.data (data version deps f)) = some t

theorem generates_of {privacy version : Bytes} {W : World} {f : FileD} {t : Bytes} {fuel depth : Nat} {deps : Dependencies}
    (hd : DependencyAnalysis W depth f.erase = some deps) (h : generate privacy version deps fuel f = some t) :
    Generates privacy W version f t :=
  ⟨_, _, fuel, depth, deps, RustTempl.parsed_eq, RustTempl.base_parses, hd, h⟩

theorem dependencies_unique {W : World} {f : Package.FileD} {a b : Nat} {d e : Dependencies} (hd : DependencyAnalysis W a f = some d)
    (he : DependencyAnalysis W b f = some e) : d = e := by
  have h1 := Package.Rust.tm_result W a f.messages _ d hd
  have h2 := Package.Rust.tm_result W b f.messages _ e he
  obtain ⟨d1, d2⟩ := d
  obtain ⟨e1, e2⟩ := e
  have hm : d2 = e2 := by
    rw [Bool.eq_iff_iff]
    exact h1.2.trans h2.2.symm
  have hn : d1 = e1 := h1.1.trans h2.1.symm
  rw [hm, hn]

theorem Generates.unique {privacy version : Bytes} {W : World} {f : FileD} {t u : Bytes} (h1 : Generates privacy W version f t)
    (h2 : Generates privacy W version f u) : t = u := by
  obtain ⟨defs, body, k, a, d, p1, p2, p3, p4⟩ := h1
  obtain ⟨defs', body', m, b, e, q1, q2, q3, q4⟩ := h2
  obtain rfl := dependencies_unique p3 q3
  rw [RustTempl.parsed_eq] at p1 q1
  rw [RustTempl.base_parses] at p2 q2
  cases p1; cases p2; cases q1; cases q2
  have x := generate_mono (Nat.le_max_left k m) p4
  have y := generate_mono (Nat.le_max_right k m) q4
  rw [x] at y
  exact Option.some.inj y

/-- There is no text for a file whose dependency analysis does not return. -/
theorem not_generates {privacy version : Bytes} {W : World} {f : FileD} (h : ∀ depth, DependencyAnalysis W depth f.erase = none) (t : Bytes) :
    ¬ Generates privacy W version f t := by
  rintro ⟨_, _, _, a, d, _, _, p, _⟩
  rw [h a] at p
  cases p

/-! ## Names -/

theorem isWord_ident {s : Bytes} (h : IsIdent s) : IsWord s := by
  obtain ⟨c, cs, rfl, hc, hs⟩ := h
  refine ⟨c, cs, rfl, ?_, hs⟩
  rcases hc with hc | hc <;> simp [isLetter, hc]

theorem isWord_camelCase {s : Bytes} (h : IsDotted s) : IsWord (camelCase s) := (GoText.isName_camelCase h).1

/-- A code point of a letter, a digit or an underscore. -/
def wordCode (n : Nat) : Bool := isWordChar (BitVec.ofNat 8 n)

theorem wordCode_lower : ∀ c : Byte, (0x41 ≤ c.toNat ∧ c.toNat ≤ 0x5A) → wordCode (c.toNat - 0x41 + 0x61) = true := by decide +kernel

theorem snakeLoop_chars (s : Bytes) (h : ∀ x ∈ s, isWordChar x = true) : ∀ (out : List Nat) (b : Bool), (∀ x ∈ out, wordCode x = true) →
    ∀ x ∈ snakeLoop out b (s.map BitVec.toNat), wordCode x = true := by
  induction s with
  | nil => intro out b ho; simpa [snakeLoop] using ho
  | cons c s ih =>
    intro out b ho
    have hs := fun x hx => h x (List.mem_cons_of_mem _ hx)
    simp only [List.map_cons, snakeLoop]
    split
    · next hc =>
      apply ih hs
      intro x hx
      rw [List.mem_append] at hx
      rcases hx with hx | hx
      · split at hx
        · rw [List.mem_append] at hx
          rcases hx with hx | hx
          · exact ho x hx
          · rw [List.mem_singleton] at hx; subst hx; decide
        · exact ho x hx
      · rw [List.mem_singleton] at hx; subst hx; exact wordCode_lower c hc
    · apply ih hs
      intro x hx
      rw [List.mem_append] at hx
      rcases hx with hx | hx
      · exact ho x hx
      · rw [List.mem_singleton] at hx; subst hx
        have := h c (List.mem_cons_self ..)
        simpa [wordCode] using this

theorem snakeLoop_prefix (s : List Nat) : ∀ (a : Nat) (out : List Nat) (b : Bool), ∃ r, snakeLoop (a :: out) b s = a :: r := by
  induction s with
  | nil => intro a out b; exact ⟨out, rfl⟩
  | cons c s ih =>
    intro a out b
    simp only [snakeLoop]
    split
    · split
      · obtain ⟨r, hr⟩ := ih a (out ++ [0x5F] ++ [c - 0x41 + 0x61]) true
        exact ⟨r, by simpa using hr⟩
      · obtain ⟨r, hr⟩ := ih a (out ++ [c - 0x41 + 0x61]) true
        exact ⟨r, by simpa using hr⟩
    · obtain ⟨r, hr⟩ := ih a (out ++ [c]) false
      exact ⟨r, by simpa using hr⟩

theorem letterCode_lower : ∀ c : Byte, (0x41 ≤ c.toNat ∧ c.toNat ≤ 0x5A) → isLower (BitVec.ofNat 8 (c.toNat - 0x41 + 0x61)) = true := by decide +kernel
theorem letterCode_keep : ∀ c : Byte, ¬ (0x41 ≤ c.toNat ∧ c.toNat ≤ 0x5A) → (isLower c = true ∨ isUpper c = true) → isLower c = true := by decide +kernel

/-- The name of a field of a generated struct starts with a lower-case letter, and has only letters, digits and underscores. -/
theorem snake_ident {s : Bytes} (h : IsIdent s) : ∃ c cs, snakeBytes s = c :: cs ∧ isLower c = true ∧ ∀ x ∈ cs, isWordChar x = true := by
  have hall : ∀ x ∈ snakeBytes s, isWordChar x = true := by
    intro x hx
    simp only [snakeBytes, List.mem_map] at hx
    obtain ⟨n, hn, rfl⟩ := hx
    exact snakeLoop_chars s h.wordChar [] false (by simp) n hn
  obtain ⟨c, cs, rfl, hc, _⟩ := h
  have hhead : ∃ d r, snakeBytes (c :: cs) = d :: r ∧ isLower d = true := by
    simp only [snakeBytes, snakeCase, List.map_cons, snakeLoop]
    split
    · next hu =>
      simp only [List.length_nil, Nat.lt_irrefl, false_and, if_false, List.nil_append]
      obtain ⟨r, hr⟩ := snakeLoop_prefix (cs.map BitVec.toNat) (c.toNat - 0x41 + 0x61) [] true
      exact ⟨_, _, by rw [hr]; rfl, letterCode_lower c hu⟩
    · next hu =>
      obtain ⟨r, hr⟩ := snakeLoop_prefix (cs.map BitVec.toNat) c.toNat [] false
      refine ⟨_, _, by rw [List.nil_append, hr]; rfl, ?_⟩
      simpa using letterCode_keep c hu hc
  obtain ⟨d, r, hd, hl⟩ := hhead
  refine ⟨d, r, hd, hl, fun x hx => hall x ?_⟩
  rw [hd]; exact List.mem_cons_of_mem _ hx

theorem isWord_snake {s : Bytes} (h : IsIdent s) : IsWord (snakeBytes s) := by
  obtain ⟨c, cs, he, hc, hs⟩ := snake_ident h
  exact ⟨c, cs, he, by simp [isLetter, hc], hs⟩

/-! ## Files -/

/-- A field as protoc describes it: no group, a map key of a kind that is allowed. -/
structure FieldWf (f : FieldD) : Prop where
  name : IsIdent f.name
  kind : f.kind ≠ .group
  type : f.kind = .message ∨ f.kind = .enum → IsDotted f.type
  key : ∀ kk, f.shape = .map kk → GoText.IsKey kk

inductive MsgWf : MsgD → Prop where
  | mk {name : Bytes} {e : Bool} {fs : List FieldD} {es : List EnumD} {ms : List MsgD}
    (name_ok : IsIdent name) (fields : ∀ f ∈ fs, FieldWf f) (enums : ∀ x ∈ es, EnumWf x) (messages : ∀ m ∈ ms, MsgWf m) :
    MsgWf (.mk name e fs es ms)

/-- A file as protoc describes it. -/
structure FileWf (f : FileD) : Prop where
  package : f.package = [] ∨ IsDotted f.package
  enums : ∀ x ∈ f.enums, EnumWf x
  messages : ∀ m ∈ f.messages, MsgWf m

theorem FieldWf.of_go {f : FieldD} (h : f.Wf) : FieldWf f := ⟨h.name, h.kind, h.type, h.key⟩

theorem MsgWf.of_go {m : MsgD} (h : m.Wf) : MsgWf m := by
  induction h with
  | mk hn hf he _ ih => exact .mk hn (fun f hf' => .of_go (hf f hf')) he ih

/-- The files of C85 to C93 meet the conditions. -/
theorem FileWf.of_go {f : FileD} (h : f.Wf) : FileWf f := ⟨h.package, h.enums, fun m hm => .of_go (h.messages m hm)⟩

theorem FieldWf.ok {f : FieldD} (h : FieldWf f) : FieldOk f :=
  ⟨isWord_snake h.name, h.kind, fun hk => isWord_camelCase (h.type hk), h.key⟩

theorem enumWf_ok {s : Bytes} {e : EnumD} (hs : s = [] ∨ IsDotted s) (h : EnumWf e) : EnumOk s e :=
  ⟨isWord_camelCase (.qualify hs h.1), fun v hv => isWord_ident (h.2 v hv)⟩

theorem MsgWf.ok {m : MsgD} (h : MsgWf m) : ∀ {s : Bytes}, (s = [] ∨ IsDotted s) → MsgOk s m := by
  induction h with
  | mk hn hf he _ ih =>
    intro s hs
    have hq := IsDotted.qualify hs hn
    exact .mk (isWord_camelCase hq) (fun f hf' => (hf f hf').ok) (fun x hx => enumWf_ok (.inr hq) (he x hx)) (fun m hm => ih m hm (.inr hq))

theorem FileWf.ok {f : FileD} (h : FileWf f) : FileOk f :=
  ⟨fun x hx => enumWf_ok h.package (h.enums x hx), fun m hm => (h.messages m hm).ok h.package⟩

end RustText
