import Verif.Text.RustDeclared
import Verif.Text.RustReads
import Verif.Props.GoText
import Verif.Props.RustPackage

/-!
# The text of generated Rust files

`RustTemplates.lean` has the template files of generator/rust (those of v2/generator/rust are the same) byte for byte, together with
proofs of what they parse to; `RustText.Generates privacy W version f t` says that the dependency analysis returns and that executing
the templates on the descriptors of file `f` prints `t`, the text that is given to `rustfmt`.  `RustLex.lex` splits text into
Rust tokens and fails on anything it does not know.  `RustParse.Reads t P` says that a parser written from the grammar of Rust reads
the text as the program `P`.
-/

namespace Props

open Utils Text
open GoText (FileD FieldD)
open Package.Rust (World DependencyAnalysis)

/-- **C94 (tokens).** For every file whose names are proto identifiers, whatever the flag `privacy`, the generator prints exactly one
text if the dependency analysis returns, and none otherwise; the text splits into the tokens of the Rust program
`RustText.program`. -/
theorem C94_tokens (privacy : Bytes) (W : World) (version : Bytes) (f : FileD) (h : RustText.FileWf f)
    (hv : ∀ c ∈ version, c.toNat ≠ 0x0A) (hp : ∀ c ∈ f.path, c.toNat ≠ 0x0A) :
    (∀ depth d, DependencyAnalysis W depth f.erase = some d → ∃ t, RustText.Generates privacy W version f t ∧
      (∀ u, RustText.Generates privacy W version f u → u = t) ∧ RustLex.lex (ofBytes t) = some (RustAst.file (RustText.program privacy d f))) ∧
    ((∀ depth, DependencyAnalysis W depth f.erase = none) → ∀ t, ¬ RustText.Generates privacy W version f t) := by
  refine ⟨fun depth d hd => ?_, fun hn => RustText.not_generates hn⟩
  obtain ⟨t, ht, hl⟩ := RustText.shows_file privacy version d f _ (Nat.le_refl _) h.ok hv hp
  refine ⟨t, RustText.generates_of hd ht, fun u hu => hu.unique (RustText.generates_of hd ht), ?_⟩
  rw [RustLex.lex, hl]

/-- **C94 (shipped versions).** The version texts that ship end with a newline.  With them every text starts with the tokens
`, DO NOT EDIT .`: it is no Rust file (an item starts with a keyword, an identifier, `#`, `::` or `<`, none with a comma), and the
parser reads it as no program. -/
theorem C94_shipped (lib : Lib) (privacy : Bytes) (W : World) (f : FileD) (h : RustText.FileWf f) (hp : ∀ c ∈ f.path, c.toNat ≠ 0x0A)
    (t : Bytes) (ht : RustText.Generates privacy W (@GoText.currentVersion lib) f t) :
    ∃ depth d, DependencyAnalysis W depth f.erase = some d ∧
      RustLex.lex (ofBytes t) = some ([.op go!",", .word go!"DO", .word go!"NOT", .word go!"EDIT", .op go!"."] ++ RustAst.file (RustText.program privacy d f)) ∧
      ∀ P, ¬ RustParse.Reads t P := by
  have he : ∃ v, @GoText.currentVersion lib = v ++ [0x0A] ∧ ∀ c ∈ v, c.toNat ≠ 0x0A := by
    cases lib
    · exact ⟨str!"v1.3.0", by decide +kernel, by decide +kernel⟩
    · exact ⟨str!"v2.0.5", by decide +kernel, by decide +kernel⟩
  obtain ⟨v, he, hv⟩ := he
  obtain ⟨_, _, _, depth, d, _, _, hd, _⟩ := id ht
  obtain ⟨u, hu, hl⟩ := RustText.shows_file_newline privacy v d f _ (Nat.le_refl _) h.ok hv hp
  rw [← he] at hu
  obtain rfl := ht.unique (RustText.generates_of hd hu)
  have hx : RustLex.lex (ofBytes t) = some ([.op go!",", .word go!"DO", .word go!"NOT", .word go!"EDIT", .op go!"."] ++ RustAst.file (RustText.program privacy d f)) := by
    rw [RustLex.lex, hl]
  refine ⟨depth, d, hd, hx, fun P hP => ?_⟩
  unfold RustParse.Reads at hP
  rw [hx, Option.bind_some] at hP
  cases hP

/-- **C94 (reading).** The text is read as the program `program`, and as no other, if no name of the file is printed as a keyword of
Rust; otherwise it is read as no program. -/
theorem C94_reads (privacy : Bytes) (W : World) (version : Bytes) (f : FileD) (h : RustText.FileWf f)
    (hv : ∀ c ∈ version, c.toNat ≠ 0x0A) (hp : ∀ c ∈ f.path, c.toNat ≠ 0x0A) (t : Bytes) (ht : RustText.Generates privacy W version f t) :
    ∃ depth d, DependencyAnalysis W depth f.erase = some d ∧ ∀ P, RustParse.Reads t P ↔ RustText.NoKeywords f ∧ P = RustText.program privacy d f := by
  obtain ⟨_, _, _, depth, d, _, _, hd, _⟩ := id ht
  obtain ⟨u, hu, _, hl⟩ := (C94_tokens privacy W version f h hv hp).1 depth d hd
  obtain rfl := ht.unique hu
  refine ⟨depth, d, hd, fun P => ?_⟩
  obtain ⟨h1, h2⟩ := RustText.parse_program h privacy d
  rw [RustParse.Reads, hl, Option.bind_some]
  by_cases hk : RustText.NoKeywords f
  · rw [h1 hk, Option.some.injEq]
    exact ⟨fun he => ⟨hk, he.symm⟩, fun he => he.2.symm⟩
  · rw [h2 hk]
    exact ⟨fun he => absurd he (by simp), fun he => absurd he.1 hk⟩

/-- **C94 (names).** The names that the program brings into the module are those of the model of names (`Package.Rust`), about which
C75 and C76 are stated; its structs are those of the messages at any depth, except the entry messages of maps, with a field
for every field of the message, in order. -/
theorem C94_declares (privacy : Bytes) (d : Package.Rust.Dependencies) (f : FileD) :
    (RustText.program privacy d f).flatMap RustAst.Item.declared = (Package.Rust.imports d ++ Package.Rust.decls f.erase).map ofBytes ∧
    (RustText.program privacy d f).flatMap RustAst.Item.structs = (f.messages.flatMap (RustText.structFields f.package)).map RustText.asIdents :=
  ⟨RustText.declared_program privacy d f, RustText.structs_program privacy d f⟩

/-! ## A file that meets the hypotheses -/

/-- The message types that `orders` refers to. -/
def ordersWorld : World := fun n =>
  if n = str!"shop.v1.Order.Line" then [⟨str!"sku", .one, .scalar⟩, ⟨str!"count", .one, .scalar⟩] else []

theorem orders_analysis : DependencyAnalysis ordersWorld 5 orders.erase = some ⟨true, true⟩ := by
  have hl : ordersWorld str!"shop.v1.Order.Line" = [⟨str!"sku", .one, .scalar⟩, ⟨str!"count", .one, .scalar⟩] := by decide +kernel
  simp [DependencyAnalysis, Package.Rust.traverseMessages, orders, FileD.erase, GoText.MsgD.erase, FieldD.erase, Package.MsgD.fields,
    Package.Rust.traverseFields, hl]

/-- The example file of C85: one text, of the program `program … orders`. -/
example : ∃ t, RustText.Generates str!"public" ordersWorld str!"v1.3.0" orders t ∧
    RustLex.lex (ofBytes t) = some (RustAst.file (RustText.program str!"public" ⟨true, true⟩ orders)) := by
  obtain ⟨t, h1, _, h2⟩ := (C94_tokens str!"public" ordersWorld str!"v1.3.0" orders (.of_go orders_wf) (by decide +kernel) (by decide +kernel)).1 5 _ orders_analysis
  exact ⟨t, h1, h2⟩

theorem orders_noKeywords : RustText.NoKeywords orders where
  types := by decide +kernel
  fields := by decide +kernel
  enums := by decide +kernel
  values := by decide +kernel

/-- The text of the example file is read as its program. -/
example : ∃ t, RustText.Generates str!"public" ordersWorld str!"v1.3.0" orders t ∧
    RustParse.Reads t (RustText.program str!"public" ⟨true, true⟩ orders) := by
  obtain ⟨t, h1, _, h2⟩ := (C94_tokens str!"public" ordersWorld str!"v1.3.0" orders (.of_go orders_wf) (by decide +kernel) (by decide +kernel)).1 5 _ orders_analysis
  refine ⟨t, h1, ?_⟩
  rw [RustParse.Reads, h2, Option.bind_some]
  exact (RustText.parse_program (.of_go orders_wf) str!"public" _).1 orders_noKeywords

/-- A message with a field `type`, a message `self`, an enum with a value `match`: none of the texts is read as a program. -/
def keywordFiles : List FileD :=
  [{ path := str!"a.proto", package := [], goPackageName := str!"a", enums := [], messages := [.mk str!"A" false [⟨str!"type", .one false, .string, []⟩] [] []] },
   { path := str!"a.proto", package := [], goPackageName := str!"a", enums := [], messages := [.mk str!"self" false [] [] []] },
   { path := str!"a.proto", package := [], goPackageName := str!"a", enums := [⟨str!"E", [str!"match"]⟩], messages := [] }]

example : ∀ f ∈ keywordFiles, ¬ RustText.NoKeywords f := by
  unfold keywordFiles
  simp only [List.mem_cons, List.not_mem_nil, or_false, forall_eq_or_imp, forall_eq]
  refine ⟨fun h => ?_, fun h => ?_, fun h => ?_⟩
  · exact absurd h.fields (by decide +kernel)
  · exact absurd h.types (by decide +kernel)
  · exact absurd h.values (by decide +kernel)

/-- With the shipped version text there is a text too, and it is the one of `C94_shipped`. -/
example (lib : Lib) : ∃ t, RustText.Generates str!"private" ordersWorld (@GoText.currentVersion lib) orders t := by
  have he : ∃ v, @GoText.currentVersion lib = v ++ [0x0A] ∧ ∀ c ∈ v, c.toNat ≠ 0x0A := by
    cases lib
    · exact ⟨str!"v1.3.0", by decide +kernel, by decide +kernel⟩
    · exact ⟨str!"v2.0.5", by decide +kernel, by decide +kernel⟩
  obtain ⟨v, he, hv⟩ := he
  obtain ⟨u, hu, _⟩ := RustText.shows_file_newline str!"private" v ⟨true, true⟩ orders _ (Nat.le_refl _) (RustText.FileWf.of_go orders_wf).ok hv (by decide +kernel)
  rw [← he] at hu
  exact ⟨u, RustText.generates_of orders_analysis hu⟩

end Props
