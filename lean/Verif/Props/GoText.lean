import Verif.Text.GoDeclared
import Verif.Text.GoReads

/-!
# The text of generated Go files

There are two Go generators, one for each version of the library; `Lib` says which, and the theorems are about both.

The generator is a set of template files.  `GoTemplates.lean` has them byte for byte, together with proofs of what they parse to;
`Generates version f t` says that executing them on the descriptors of file `f` prints `t`.  `Text.lex` splits text into Go
tokens and fails on anything it does not know; `GoParse.parse` reads tokens as Go declarations (package clause, imports, types,
constants, variables, functions, methods; statements and expressions inside) and fails on anything outside the part of the Go
grammar it knows.  `GoParse.Reads t P` says that text `t` is read as the program `P`; it is a function of the text.
-/

namespace Props

open Utils Text GoAst GoText
open Gen (PKind)

variable {lib : Lib}

/-- **C85 (text).** For every file whose names are proto identifiers (at any depth of nesting, with any fields, enums and maps)
and whose Go package is not named like a keyword, the generator, given a version text and a path without newlines, prints exactly one
text, and it splits into the tokens of the Go program `program f`. -/
theorem C85_tokens (version : Bytes) (f : FileD) (h : f.Wf) (hv : ∀ c ∈ version, c.toNat ≠ 0x0A) (hp : ∀ c ∈ f.path, c.toNat ≠ 0x0A) :
    ∃ t, Generates version f t ∧ (∀ u, Generates version f u → u = t) ∧ lex (ofBytes t) = some (file (program f)) := by
  obtain ⟨t, ht, hl⟩ := shows_file version f _ (Nat.le_refl _) h.ok hv hp
  refine ⟨t, generates_of ht, fun u hu => hu.unique (generates_of ht), ?_⟩
  rw [lex, hl]

/-- **C85 (program).** The text is read, as Go, as the program `program f` and nothing else. -/
theorem C85_reads (version : Bytes) (f : FileD) (h : f.Wf) (hv : ∀ c ∈ version, c.toNat ≠ 0x0A) (hp : ∀ c ∈ f.path, c.toNat ≠ 0x0A) :
    ∃ t, Generates version f t ∧ (∀ u, Generates version f u → u = t) ∧ ∀ P, GoParse.Reads t P ↔ P = program f := by
  obtain ⟨t, h1, h2, h3⟩ := C85_tokens version f h hv hp
  have hr : GoParse.Reads t (program f) := by
    unfold GoParse.Reads
    rw [h3]
    exact parse_program h
  refine ⟨t, h1, h2, fun P => ⟨fun hP => ?_, fun e => e ▸ hr⟩⟩
  unfold GoParse.Reads at hP hr
  rw [hP] at hr
  exact Option.some.inj hr

/-- **C85 (shipped version).** The version text that ships ends with a newline.  With it the text of every such file starts with
`, DO NOT EDIT.` instead of `package`: it is not a Go file, and is read as no program. -/
theorem C85_shipped (f : FileD) (h : f.Wf) (hp : ∀ c ∈ f.path, c.toNat ≠ 0x0A) :
    ∃ t, Generates currentVersion f t ∧ (∀ u, Generates currentVersion f u → u = t) ∧
      lex (ofBytes t) = some ([.op go!",", .word go!"DO", .word go!"NOT", .word go!"EDIT", .op go!"."] ++ file (program f)) ∧
      (∀ ts, lex (ofBytes t) = some ts → ts.head? ≠ some (.word go!"package")) ∧ (∀ P, ¬ GoParse.Reads t P) := by
  have he : ∃ v, currentVersion = v ++ [0x0A] ∧ ∀ c ∈ v, c.toNat ≠ 0x0A := by
    cases lib
    · exact ⟨str!"v1.3.0", by decide +kernel, by decide +kernel⟩
    · exact ⟨str!"v2.0.5", by decide +kernel, by decide +kernel⟩
  obtain ⟨v, he, hv⟩ := he
  obtain ⟨t, ht, hl⟩ := shows_file_newline v f _ (Nat.le_refl _) h.ok hv hp
  rw [← he] at ht
  have hlex : lex (ofBytes t) = some ([.op go!",", .word go!"DO", .word go!"NOT", .word go!"EDIT", .op go!"."] ++ file (program f)) := by rw [lex, hl]
  refine ⟨t, generates_of ht, fun u hu => hu.unique (generates_of ht), hlex, ?_, ?_⟩
  · intro ts hts
    rw [hlex] at hts
    cases hts
    simp
  · intro P hP
    unfold GoParse.Reads at hP
    rw [hlex] at hP
    simp [GoParse.parse, GoParse.decls, GoParse.decl] at hP

/-- Every Go file starts with `package`; the program does. -/
theorem C85_package (f : FileD) : ∃ ts, file (program f) = .word go!"package" :: .word (ofBytes (packageName f)) :: .op go!";" :: ts :=
  ⟨_, rfl⟩

/-- **C85 (names).** The package-level names the program of the v2 generator declares are those of the model of names
(`Package.Go.decls`), about which C73 is stated. -/
theorem C85_declares (f : FileD) : (@program .v2 f).flatMap Decl.declared = (Package.Go.decls f.erase).map ofBytes := by
  rw [@declared_program .v2]
  rfl

/-- **C85 (names, v1).** Those of the v1 generator are the same, but for the error variable, which is named `NilDecode`. -/
theorem C85_declares_v1 (f : FileD) : ∃ rest, Package.Go.decls f.erase = str!"ErrDecodeNil" :: rest ∧
    (@program .v1 f).flatMap Decl.declared = go!"NilDecode" :: rest.map ofBytes :=
  ⟨_, rfl, by rw [@declared_program .v1]; rfl⟩

/-! ## A file that meets the hypotheses -/

/-- `isIdent s = true` makes `s` an identifier. -/
def identB (s : Bytes) : Bool :=
  match s with
  | [] => false
  | c :: cs => (isLower c || isUpper c) && cs.all isWordChar

theorem isIdent_of {s : Bytes} (h : identB s = true) : IsIdent s := by
  cases s with
  | nil => simp [identB] at h
  | cons c cs =>
    simp only [identB, Bool.and_eq_true, Bool.or_eq_true, List.all_eq_true] at h
    exact ⟨c, cs, rfl, h.1, h.2⟩

/-- ```proto
package shop.v1;
enum Color { RED = 0; GREEN = 1; }
message Order {
  enum State { OPEN = 0; }
  message Line { string sku = 1; uint32 count = 2; }
  string id = 1; Color color = 2; repeated Line lines = 3; map<string, Line> by_sku = 4; repeated bytes blobs = 5; Line main_line = 6;
}
``` -/
def orders : FileD :=
  { path := str!"shop.proto", package := str!"shop.v1", goPackageName := str!"shop",
    enums := [⟨str!"Color", [str!"RED", str!"GREEN"]⟩],
    messages := [.mk str!"Order" false
      [⟨str!"id", .one false, .string, []⟩, ⟨str!"color", .one false, .enum, str!"shop.v1.Color"⟩,
       ⟨str!"lines", .many, .message, str!"shop.v1.Order.Line"⟩, ⟨str!"by_sku", .map .string, .message, str!"shop.v1.Order.Line"⟩,
       ⟨str!"blobs", .many, .bytes, []⟩, ⟨str!"main_line", .one false, .message, str!"shop.v1.Order.Line"⟩]
      [⟨str!"State", [str!"OPEN"]⟩]
      [.mk str!"Line" false [⟨str!"sku", .one false, .string, []⟩, ⟨str!"count", .one false, .uint32, []⟩] [] [],
       .mk str!"BySkuEntry" true [⟨str!"key", .one false, .string, []⟩, ⟨str!"value", .one false, .message, str!"shop.v1.Order.Line"⟩] [] []]] }

theorem orders_dotted : IsDotted str!"shop.v1.Order.Line" ∧ IsDotted str!"shop.v1.Color" ∧ IsDotted str!"shop.v1" := by
  have h : ∀ s, identB s = true → IsIdent s := fun _ => isIdent_of
  refine ⟨?_, ?_, ?_⟩
  · exact .more (s := str!"shop") (h _ (by decide)) (.more (s := str!"v1") (h _ (by decide)) (.more (s := str!"Order") (t := str!"Line") (h _ (by decide)) (.one (h _ (by decide)))))
  · exact .more (s := str!"shop") (h _ (by decide)) (.more (s := str!"v1") (t := str!"Color") (h _ (by decide)) (.one (h _ (by decide))))
  · exact .more (s := str!"shop") (t := str!"v1") (h _ (by decide)) (.one (h _ (by decide)))

theorem orders_wf : orders.Wf := by
  obtain ⟨hl, hc, hp⟩ := orders_dotted
  have hident : ∀ {s}, identB s = true → IsIdent s := isIdent_of
  have hf : ∀ {n s k t}, identB n = true → k ≠ .group → (k = .message ∨ k = .enum → IsDotted t) → (s = .many → k = .enum → False) →
      (∀ kk, s = .map kk → IsKey kk) → FieldD.Wf ⟨n, s, k, t⟩ :=
    fun a b c d e => ⟨hident a, b, c, fun x y => absurd (d x y) id, e⟩
  have line : MsgD.Wf (.mk str!"Line" false [⟨str!"sku", .one false, .string, []⟩, ⟨str!"count", .one false, .uint32, []⟩] [] []) :=
    .mk (hident (by decide)) (by
      intro f hf'
      simp only [List.mem_cons, List.not_mem_nil, or_false] at hf'
      rcases hf' with rfl | rfl <;> exact hf (by decide) (by decide) (by simp) (by simp) (by simp)) (by simp) (by simp)
  refine ⟨.inr hp, by intro h; exact absurd h (by decide), by decide +kernel, ?_, ?_⟩
  · intro x hx
    simp only [orders, List.mem_cons, List.not_mem_nil, or_false] at hx
    subst hx
    refine ⟨hident (by decide), fun v hv => hident ?_⟩
    simp only [List.mem_cons, List.not_mem_nil, or_false] at hv
    rcases hv with rfl | rfl <;> decide
  · intro m hm
    simp only [orders, List.mem_cons, List.not_mem_nil, or_false] at hm
    subst hm
    refine .mk (hident (by decide)) ?_ ?_ ?_
    · intro f hf'
      simp only [List.mem_cons, List.not_mem_nil, or_false] at hf'
      rcases hf' with rfl | rfl | rfl | rfl | rfl | rfl
      · exact hf (by decide) (by decide) (by simp) (by simp) (by simp)
      · exact hf (by decide) (by decide) (fun _ => hc) (by simp) (by simp)
      · exact hf (by decide) (by decide) (fun _ => hl) (by simp) (by simp)
      · refine hf (by decide) (by decide) (fun _ => hl) (by simp) ?_
        intro kk h; cases h; trivial
      · exact hf (by decide) (by decide) (by simp) (by simp) (by simp)
      · exact hf (by decide) (by decide) (fun _ => hl) (by simp) (by simp)
    · intro x hx
      simp only [List.mem_cons, List.not_mem_nil, or_false] at hx
      subst hx
      refine ⟨hident (by decide), fun v hv => hident ?_⟩
      simp only [List.mem_cons, List.not_mem_nil, or_false] at hv
      subst hv; decide
    · intro m hm
      simp only [List.mem_cons, List.not_mem_nil, or_false] at hm
      rcases hm with rfl | rfl
      · exact line
      · refine .mk (hident (by decide)) ?_ (by simp) (by simp)
        intro f hf'
        simp only [List.mem_cons, List.not_mem_nil, or_false] at hf'
        rcases hf' with rfl | rfl
        · exact hf (by decide) (by decide) (by simp) (by simp) (by simp)
        · exact hf (by decide) (by decide) (fun _ => hl) (by simp) (by simp)

example : ∃ t, Generates str!"v2.0.5" orders t ∧ (∀ u, Generates str!"v2.0.5" orders u → u = t) ∧ lex (ofBytes t) = some (file (program orders)) :=
  C85_tokens _ _ orders_wf (by decide +kernel) (by decide +kernel)

/-- Part of the program for the file: the struct of the outer message. -/
example : Decl.struct go!"ShopV1Order" [(go!"Id", .name go!"string"), (go!"Color", .name go!"ShopV1Color"), (go!"Lines", .slice (.ptr (.name go!"ShopV1OrderLine"))),
    (go!"BySku", .name go!"ShopV1OrderBySkuMap"), (go!"Blobs", .slice (.slice (.name go!"byte"))), (go!"MainLine", .ptr (.name go!"ShopV1OrderLine"))] ∈ program orders := by
  cases lib <;> decide +kernel

/-- The constructor of the outer message: the older generator makes the inner message as well. -/
example : newFunc go!"ShopV1Order" [(go!"MainLine", go!"NewShopV1OrderLine")] ∈ @program .v1 orders := by decide +kernel

example : newFunc go!"ShopV1Order" [] ∈ @program .v2 orders := by decide +kernel

/-- The package clause of a file in package `my.type` is not Go: the last part of the package name is used as it is. -/
example : packageName { orders with package := str!"my.type" } = str!"type" := by decide +kernel

end Props
