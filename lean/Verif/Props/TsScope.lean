import Verif.Text.TsScopeFile
import Verif.Props.TsText

/-!
# Names in generated TypeScript programs resolve

`TsAst.Scoped is` is the rule of the language for the programs of `TsAst`: the names of a file are declared once; every name that is used
is declared in an enclosing scope, and the innermost scope that has it has declared it before; a scope declares no name twice (parameters
and the body of a function count as one); the types that are written are declared in the file or built in; the members of a class
have different names.
-/

namespace Props

open Utils Text
open GoText (FileD FieldD)

/-- **C97 (scoped).** Let the fields of a file refer to messages and enums of this file, and let its names keep clear of each other:
imports, enums and classes have different names; so have the values of an enum, and the properties of a class, none of which is
`encode`; and so have the variables of `decode`, none of which is `buf`, a variable of a loop or a function of the package.  Then
every name in the program that the text of this file is (C96) resolves. -/
theorem C97_scoped (before : List FileD) (f : FileD) (h : RustText.FileWf f) (hc : f.Closed) (names : List String) (hn : TsText.Imports before f names)
    (hd : TsText.Distinct names f) : TsAst.Scoped (TsText.program (names.map TsText.nameBytes) f) :=
  TsText.program_scoped h hc hn (fun t ht x hx ns hns n hn' =>
    (C96_imports before f names hn n).mpr ⟨f, List.mem_append_right _ (List.mem_singleton.mpr rfl), t, ht, x, hx, ns, hns, hn'⟩) hd

/-- **C97 (needs).** Conversely, if every name resolves, then imports, enums and classes have different names; so have the values of
an enum, the properties of a class and `encode`, and the variables of `decode` and `buf`; and the type of a field that is a
message or an enum is declared in this file or a type of the language. -/
theorem C97_needs (deps : List Bytes) (f : FileD) (h : TsAst.Scoped (TsText.program deps f)) :
    (deps.map ofBytes ++ (f.enumTypes.map TsText.enumOf).map (·.1) ++ (f.types.map TsText.classOf).map (·.name)).Nodup ∧
    (∀ e ∈ f.enumTypes, ((TsText.enumOf e).2.map (·.1)).Nodup) ∧
    ∀ t ∈ f.types, (go!"encode" :: (TsText.classOf t).getters).Nodup ∧ (go!"buf" :: (TsText.classOf t).decodes).Nodup ∧
      ∀ x ∈ t.2, x.kind = .message ∨ x.kind = .enum →
        TsText.camel x.type ∈ (f.enumTypes.map TsText.enumOf).map (·.1) ++ (f.types.map TsText.classOf).map (·.name) ++ TsAst.builtin :=
  TsText.scoped_needs h

/-! ## Files that meet the hypotheses, and files that do not -/

def ordersNames : List String :=
  ["Kind", "decodeArray", "decodeBytes", "decodeMap", "decodeString", "decodeUint32",
   "encodeArray", "encodeBytes", "encodeMap", "encodeString", "encodeUint32"]

theorem orders_imports : TsText.Imports [] orders ordersNames := ⟨[ordersNames], by decide +kernel, rfl⟩

theorem orders_distinct : TsText.Distinct ordersNames orders := by
  refine ⟨by decide +kernel, by decide +kernel, by decide +kernel, by decide +kernel⟩

/-- Every name in the example file of C85 resolves. -/
example : TsAst.Scoped (TsText.program (ordersNames.map TsText.nameBytes) orders) :=
  C97_scoped [] orders (.of_go orders_wf) (by unfold FileD.Closed; decide +kernel) ordersNames orders_imports orders_distinct

/-- A file with one message type `A`. -/
def oneMessage (fs : List FieldD) : FileD :=
  { path := str!"a.proto", package := [], goPackageName := str!"a", enums := [], messages := [.mk str!"A" false fs [] []] }

/-- Fields `b` and `bTemp`: `decode` declares `bTemp` twice. -/
example (deps : List Bytes) : ¬ TsAst.Scoped (TsText.program deps (oneMessage [⟨str!"b", .one false, .bool, []⟩, ⟨str!"bTemp", .many, .bool, []⟩])) := by
  intro h
  have := ((C97_needs _ _ h).2.2 _ (List.mem_singleton.mpr rfl)).2.1
  revert this
  decide +kernel

/-- A field `encode`: the class has an accessor and a method of this name. -/
example (deps : List Bytes) : ¬ TsAst.Scoped (TsText.program deps (oneMessage [⟨str!"encode", .one false, .bool, []⟩])) := by
  intro h
  have := ((C97_needs _ _ h).2.2 _ (List.mem_singleton.mpr rfl)).1
  revert this
  decide +kernel

/-- A repeated field `buf`: `decode` declares its parameter again. -/
example (deps : List Bytes) : ¬ TsAst.Scoped (TsText.program deps (oneMessage [⟨str!"buf", .many, .bool, []⟩])) := by
  intro h
  have := ((C97_needs _ _ h).2.2 _ (List.mem_singleton.mpr rfl)).2.1
  revert this
  decide +kernel

/-- A field whose type is declared in another file: no import makes it known. -/
example (deps : List Bytes) : ¬ TsAst.Scoped (TsText.program deps (oneMessage [⟨str!"b", .one false, .message, str!"other.B"⟩])) := by
  intro h
  have := ((C97_needs _ _ h).2.2 _ (List.mem_singleton.mpr rfl)).2.2 _ (List.mem_singleton.mpr rfl) (.inl rfl)
  revert this
  decide +kernel

/-- `repeated string a; map<string, string> decodeString`: the loop for `a` calls the variable of the map before it is declared. -/
example : let f := oneMessage [⟨str!"a", .many, .string, []⟩, ⟨str!"decodeString", .map .string, .string, []⟩]
    ∃ names, TsText.Imports [] f names ∧ ¬ TsAst.Scoped (TsText.program (names.map TsText.nameBytes) f) := by
  refine ⟨["Kind", "decodeArray", "decodeMap", "decodeString", "encodeArray", "encodeMap", "encodeString"], ⟨[_], by decide +kernel, rfl⟩, fun h => ?_⟩
  have := h.2
  revert this
  decide +kernel

end Props
