import Verif.Text.TsFlow
import Verif.Props.TsScope

/-!
# What `encode` and `decode` of generated TypeScript classes pass on

`Item.bodies static n` are the bodies of the methods `n` of a class; `Stmt.calls` the functions and methods that a statement calls, with
their arguments; `Stmt.vars` the variables that it mentions, once for every time; `Stmt.inits` the variables that it declares, with what
they are set to; `Stmt.reads` the properties that it reads from variables; `Stmt.loops` the bodies of its `for` loops.
-/

namespace Props

open Utils Text
open GoText (FileD FieldD)

/-- **C98 (encode).** All functions and methods that the `encode` methods of a file call are given the bytes encoded so far, exactly when all
repeated fields of the file are of messages: for any other repeated field the bytes before it are not handed on. -/
theorem C98_encode (deps : List Bytes) (f : FileD) :
    (∀ b ∈ (TsText.program deps f).flatMap (TsAst.Item.bodies false go!"encode"), ∀ c ∈ b.calls, c.2.head? = some (.var go!"encoded")) ↔
      ∀ t ∈ f.types, ∀ x ∈ t.2, x.shape = .many → x.kind = .message := by
  have h1 := TsText.bodies_program (deps := deps) (f := f) (s := false) (n := go!"encode") (g := fun t => TsText.block (TsText.encodeStmts t.2)) TsText.bodies_encode
  constructor
  · intro h t ht
    exact (TsText.threads_encode t.2).mp (h _ ((h1 _).mpr ⟨t, ht, rfl⟩))
  · intro h b hb
    obtain ⟨t, ht, rfl⟩ := (h1 b).mp hb
    exact (TsText.threads_encode t.2).mpr (h t ht)

/-- **C98 (maps).** Let the variables of `decode` have different names, none of them that of a parameter, a loop variable or a function of
the package.  For every map field `x` of a class, `decode` sets a variable to an object with a new, empty `Map` and hands this map to the
constructor; in between, and anywhere else, it does not mention the variable: what it decodes goes elsewhere. -/
theorem C98_maps (deps : List Bytes) (f : FileD) (h : RustText.FileWf f) (t : Bytes × List FieldD) (ht : t ∈ f.types)
    (hd : (TsText.classOf t).decodes.Nodup) (hf : ∀ v ∈ (TsText.classOf t).decodes, v ∉ TsText.taken)
    (x : FieldD) (hx : x ∈ t.2) (kk : Gen.PKind) (hs : x.shape = .map kk) :
    ∃ i ∈ TsText.program deps f, ∃ b, i.bodies true go!"decode" = [b] ∧
      i.classes.map (·.name) = [ofBytes (camelCase t.1)] ∧
      b.built.map (·.1) = [ofBytes (camelCase t.1)] ∧
      (ofBytes (lowercaseCamelCase x.name) ++ go!"Temp", TsAst.emptyMap) ∈ b.inits ∧
      (∀ c ∈ b.built, ofBytes (lowercaseCamelCase x.name) ++ go!"Temp" ∈ c.2) ∧
      b.vars.count (ofBytes (lowercaseCamelCase x.name) ++ go!"Temp") = 1 := by
  have hb := TsText.bodies_decode t
  have hbuilt : (TsText.block (TsText.decodeStmts t)).built =
      [(TsText.camel t.1, (t.2.filter FieldD.isValue ++ t.2.filter FieldD.isSlice ++ t.2.filter FieldD.isMessage).map fun f => TsText.temp (TsText.lower f.name))] := by
    have h1 := TsText.decode_built t.1 t.2
    rw [TsText.decode_body, List.flatMap_cons, List.flatMap_nil, List.append_nil] at h1
    exact h1
  refine ⟨_, TsText.classItem_mem ht, _, hb, by rw [TsText.classes_class]; rfl, by rw [hbuilt]; rfl, TsText.map_init hx hs, ?_,
    TsText.map_count (TsText.file_fields h t ht) (h.typeWf ht).name hd hf hx hs⟩
  rw [hbuilt]
  intro c hc
  rw [List.mem_singleton] at hc
  subst hc
  refine List.mem_map.mpr ⟨x, List.mem_append_right _ (List.mem_filter.mpr ⟨hx, by rw [FieldD.isMessage, hs]⟩), rfl⟩

/-- **C98 (enums).** In a file there is a `decode` with a loop that makes an object with one property and reads another one from it, as what
is left to decode, exactly when the file has a repeated field of an enum. -/
theorem C98_enum (deps : List Bytes) (f : FileD) :
    (∃ b ∈ (TsText.program deps f).flatMap (TsAst.Item.bodies true go!"decode"), ∃ l ∈ b.loops,
      ∃ x n e p, (x, TsAst.Expr.obj1 n e) ∈ l.inits ∧ (x, p) ∈ l.reads ∧ p ≠ n) ↔
      ∃ t ∈ f.types, ∃ x ∈ t.2, x.shape = .many ∧ x.kind = .enum := by
  have h1 := TsText.bodies_program (deps := deps) (f := f) (s := true) (n := go!"decode") (g := fun t => TsText.block (TsText.decodeStmts t)) TsText.bodies_decode
  constructor
  · rintro ⟨b, hb, hl⟩
    obtain ⟨t, ht, rfl⟩ := (h1 b).mp hb
    exact ⟨t, ht, (TsText.missing_decode t).mp hl⟩
  · rintro ⟨t, ht, hx⟩
    exact ⟨_, (h1 _).mpr ⟨t, ht, rfl⟩, (TsText.missing_decode t).mpr hx⟩

/-! ## Files that meet the hypotheses -/

/-- The map field `by_sku` of the example file of C85. -/
example (deps : List Bytes) : ∃ i ∈ TsText.program deps orders, ∃ b, i.bodies true go!"decode" = [b] ∧ (go!"by_skuTemp", TsAst.emptyMap) ∈ b.inits ∧
    b.vars.count go!"by_skuTemp" = 1 := by
  have hd := orders_distinct.locals
  obtain ⟨t, ht, x, hx, hs, hn⟩ : ∃ t ∈ orders.types, ∃ x ∈ t.2, x.shape = .map .string ∧ lowercaseCamelCase x.name = str!"by_sku" := by decide +kernel
  obtain ⟨i, hi, b, hb, _, _, h1, _, h2⟩ := C98_maps deps orders (.of_go orders_wf) t ht (hd t ht).1 (hd t ht).2 x hx _ hs
  rw [hn] at h1 h2
  exact ⟨i, hi, b, hb, h1, h2⟩

/-- `repeated bytes blobs` in that file: `encodeArray` is not given what comes before. -/
example (deps : List Bytes) : ¬ ∀ b ∈ (TsText.program deps orders).flatMap (TsAst.Item.bodies false go!"encode"), ∀ c ∈ b.calls, c.2.head? = some (.var go!"encoded") := by
  intro h
  have := (C98_encode deps orders).mp h
  revert this
  decide +kernel

/-- A message with a map of strings only: all calls are given it. -/
example (deps : List Bytes) : ∀ b ∈ (TsText.program deps (oneMessage [⟨str!"m", .map .string, .string, []⟩])).flatMap (TsAst.Item.bodies false go!"encode"),
    ∀ c ∈ b.calls, c.2.head? = some (.var go!"encoded") :=
  (C98_encode deps _).mpr (by decide +kernel)

/-- A file with one message whose only field is `repeated Color colors`. -/
example (deps : List Bytes) : ∃ b ∈ (TsText.program deps (oneMessage [⟨str!"colors", .many, .enum, str!"Color"⟩])).flatMap (TsAst.Item.bodies true go!"decode"), ∃ l ∈ b.loops,
    ∃ x n e p, (x, TsAst.Expr.obj1 n e) ∈ l.inits ∧ (x, p) ∈ l.reads ∧ p ≠ n :=
  (C98_enum deps _).mpr (by decide +kernel)

end Props
