import Verif.Props.GoCompiles
import Verif.Props.GoV1Runs

/-!
# If the generated Go code compiles, it works

C86, C87, C91 and C92 are about files that have none of a list of defects.  Here there is no such list: the Go compiler is the judge.
`GoCheck.compiles` is the type checker of C88.
-/

namespace Props

open Utils Text GoAst GoText GoRun Gen
open GoCheck (compiles)
open GoGen (Decode)

section
variable {lib : Lib}

/-- Nothing in the file compiles by accident: no field refers to a type of another file that happens to have the Go name of a
declaration of this one, and no enum that is used in a repeated field is named `uint32`. -/
structure NoHomonyms [Lib] (f : FileD) : Prop where
  own : f.OwnNames
  uint32 : ∀ t ∈ f.types, ∀ g ∈ t.2, g.shape = .many → g.kind = .enum → g.type ≠ str!"uint32"

theorem compilable_of (f : FileD) (hw : f.Wf) (hn : NoHomonyms f) (h : compiles (program f) = true) : f.Compilable :=
  (GoCheck.compiles_iff hw hn.own hn.uint32).mp h

/-- **C93 (both versions).** If the printed program of a file compiles, then its methods `Encode` and `Decode` do their work for every
message type: `Encode` makes the calls of the layout, and `Decode` returns, for every input, what the model `GoGen.Decode` says, which the
other properties are about. -/
theorem C93_works (f : FileD) (hw : f.Wf) (hn : NoHomonyms f) (h : compiles (program f) = true) :
    ∀ m t, f.types[m]? = some t → ∀ x : V, x.OfField f.schema (.one .message m false) →
      (∀ depth, 2 * x.depth ≤ depth → ∀ rd inp,
        callMethod (program f) rd depth (camel t.1) go!"Encode" (.data x) [.buffer] inp = .ok [] (some (.data x)) (f.schema.layout m x) inp) ∧
      ∀ (b : Bytes) (fuel depth : Nat), 2 * fuel + 1 ≤ depth → Decode ver f.schema fuel m x b ≠ .overflow → ∀ inp,
        Returns (callMethod (program f) ver.codec depth (camel t.1) go!"Decode" (.data x) [.data (.scalar (.bytes b))] inp) (Decode ver f.schema fuel m x b) := by
  have hc := compilable_of f hw hn h
  exact fun m t ht x hx => ⟨fun d hd rd inp => C86_encode f hc.plain m t ht x hx d hd rd inp,
    fun b fuel d hd ho inp => C87_decode f hc.plain hc.unhidden m t ht x hx b fuel d hd ho inp⟩

/-- **C93 (texts).** The same, about the text that the generator prints, whatever program a parser reads in it. -/
theorem C93_text (version : Bytes) (f : FileD) (hw : f.Wf) (hn : NoHomonyms f) (hv : ∀ c ∈ version, c.toNat ≠ 0x0A) (hp : ∀ c ∈ f.path, c.toNat ≠ 0x0A)
    (txt : Bytes) (P : List Decl) (hg : Generates version f txt) (hr : GoParse.Reads txt P) (h : compiles P = true) :
    ∀ m t, f.types[m]? = some t → ∀ x : V, x.OfField f.schema (.one .message m false) →
      (∀ depth, 2 * x.depth ≤ depth → ∀ rd inp,
        callMethod P rd depth (camel t.1) go!"Encode" (.data x) [.buffer] inp = .ok [] (some (.data x)) (f.schema.layout m x) inp) ∧
      ∀ (b : Bytes) (fuel depth : Nat), 2 * fuel + 1 ≤ depth → Decode ver f.schema fuel m x b ≠ .overflow → ∀ inp,
        Returns (callMethod P ver.codec depth (camel t.1) go!"Decode" (.data x) [.data (.scalar (.bytes b))] inp) (Decode ver f.schema fuel m x b) := by
  obtain ⟨txt', _, h2, h3⟩ := C85_reads version f hw hv hp
  rw [h2 txt hg] at hr
  obtain rfl := (h3 P).1 hr
  exact C93_works f hw hn h

end

section
open LibV2

/-- **C93 (v2, round trip).** If the v2 program compiles, messages survive `Encode` and `Decode`.  (Nil as the value of the first field of
a message is excluded, C41, and nil elements come back as empty messages.) -/
theorem C93_roundtrip_v2_partial (f : FileD) (hw : f.Wf) (hno : NoHomonyms f) (h : compiles (program f) = true) (rt : GoV2.Runtime) (b0 : GoV2.Buffer) (hb : GoV2.Fresh b0)
    (m : Nat) (t : Bytes × List FieldD) (ht : f.types[m]? = some t) (vs : List V) (hv : (V.msg vs).OfField f.schema (.one .message m false)) (hf : (V.msg vs).FitsV2)
    (ha : (V.msg vs).Anchored f.schema (.one .message m false)) (hn : (V.msg vs).NoNilElems) (depth : Nat) (hd : 2 * (V.msg vs).depth + 3 ≤ depth) :
    ∃ calls b bs fresh,
      callMethod (program f) GoV2.readItem depth (camel t.1) go!"Encode" (.data (.msg vs)) [.buffer] [] = .ok [] (some (.data (.msg vs))) calls [] ∧
      GoV2.encodeItems rt b0 calls = .ok b ∧ b.Bytes = .ok bs ∧
      callFunc (program f) GoV2.readItem depth (go!"New" ++ camel t.1) [] [] = .ok [.data fresh] none [] [] ∧
      ∀ tail, ∃ unread, callMethod (program f) GoV2.readItem depth (camel t.1) go!"Decode" (.data fresh) [.data (.scalar (.bytes (bs ++ tail)))] [] =
        .ok [.err none] (some (.data (.msg (settledAll vs)))) [] unread :=
  C87_roundtrip_partial f (compilable_of f hw hno h).plain (compilable_of f hw hno h).unhidden rt b0 hb m t ht vs hv hf ha hn depth hd

end

/-- The two programs of a file. -/
def Compiles [Lib] (f : FileD) : Prop := compiles (program f) = true

/-- **C93 (v1 and v2).** If one of the two generated programs of a file compiles, so does the other, unless the file declares the Go name of
the error variable of one of them (`NilDecode` in v1, `ErrDecodeNil` in v2). -/
theorem C93_both (f : FileD) (hw : f.Wf) (hn1 : @NoHomonyms .v1 f) (hn2 : @NoHomonyms .v2 f)
    (hv1 : go!"NilDecode" ∉ (@program .v2 f).flatMap Decl.declared) (hv2 : go!"ErrDecodeNil" ∉ (@program .v1 f).flatMap Decl.declared) :
    @Compiles .v1 f ↔ @Compiles .v2 f := by
  have hnodup : ((@program .v1 f).flatMap Decl.declared).Nodup ↔ ((@program .v2 f).flatMap Decl.declared).Nodup := by
    rw [@declared_program .v2 f] at hv1
    rw [@declared_program .v1 f] at hv2
    rw [@declared_program .v1 f, @declared_program .v2 f, List.nodup_cons, List.nodup_cons]
    have h1 : @errNil .v1 ∉ (Package.Go.decls f.erase).tail.map ofBytes := fun h => hv1 (List.mem_cons_of_mem _ h)
    have h2 : @errNil .v2 ∉ (Package.Go.decls f.erase).tail.map ofBytes := fun h => hv2 (List.mem_cons_of_mem _ h)
    exact ⟨fun h => ⟨h2, h.2⟩, fun h => ⟨h1, h.2⟩⟩
  have h1 := @C88_exact_partial .v1 f hw (@NoHomonyms.own .v1 f hn1) (@NoHomonyms.uint32 .v1 f hn1)
  have h2 := @C88_exact_partial .v2 f hw (@NoHomonyms.own .v2 f hn2) (@NoHomonyms.uint32 .v2 f hn2)
  rw [← hnodup] at h2
  exact h1.trans h2.symm

/-- **C93 (refuted for the names of the error variables).** A message `NilDecode` clashes with the variable of v1 only, a message
`ErrDecodeNil` with that of v2 only. -/
theorem C93_both_false :
    let file (n : Bytes) : FileD := { shopFile with package := [], enums := [], messages := [.mk n false [⟨str!"sku", .one false, .string, []⟩] [] []] }
    (¬ @Compiles .v1 (file str!"NilDecode") ∧ @Compiles .v2 (file str!"NilDecode")) ∧
    (@Compiles .v1 (file str!"ErrDecodeNil") ∧ ¬ @Compiles .v2 (file str!"ErrDecodeNil")) := by
  refine ⟨⟨?_, ?_⟩, ?_, ?_⟩ <;> (unfold Compiles; decide +kernel)

/-! ## Examples -/

section
variable {lib : Lib}

theorem shopFile_noHomonyms : NoHomonyms shopFile := ⟨shopFile_plain.closed.ownNames, by decide +kernel⟩

/-- The hypotheses are met. -/
example : shopFile.Wf ∧ NoHomonyms shopFile ∧ compiles (program shopFile) = true :=
  ⟨shopFile_plain.wf, shopFile_noHomonyms, GoCheck.compiles_program shopFile_compilable⟩

example : go!"NilDecode" ∉ (@program .v2 shopFile).flatMap Decl.declared ∧ go!"ErrDecodeNil" ∉ (@program .v1 shopFile).flatMap Decl.declared := by decide +kernel

/-- The order of the fields decides whether the variable of one hides the type of the other: `var ColorTemp uint32` must not come
before `x.Shade = ColorTemp(ShadeTemp)`. -/
def shadeFile (swap : Bool) : FileD :=
  let shade : FieldD := ⟨str!"shade", .one false, .enum, str!"ColorTemp"⟩
  let color : FieldD := ⟨str!"color", .one false, .enum, str!"Color"⟩
  { shopFile with
    package := []
    enums := [⟨str!"Color", [str!"RED"]⟩, ⟨str!"ColorTemp", [str!"WARM"]⟩]
    messages := [.mk str!"Order" false (if swap then [color, shade] else [shade, color]) [] []] }

example : compiles (program (shadeFile false)) = true ∧ compiles (program (shadeFile true)) = false := by cases lib <;> decide +kernel

/-- A file with a field of a type of another file, `x.Line`, whose Go name is that of its own message `XLine`. -/
def homonymFile : FileD :=
  { shopFile with
    package := []
    enums := []
    messages := [.mk str!"XLine" false [⟨str!"sku", .one false, .string, []⟩] [] [], .mk str!"Order" false [⟨str!"n", .one false, .uint32, []⟩, ⟨str!"line", .one false, .message, str!"x.Line"⟩] [] []] }

/-- **C93 (refuted with homonyms).** The program of this file compiles, but the field holds a message of the wrong type. -/
theorem C93_homonym_false : compiles (program homonymFile) = true ∧ ¬ homonymFile.Closed ∧ ¬ NoHomonyms homonymFile := by
  have hno : ¬ homonymFile.Closed := by
    intro h
    have := (h (str!"Order", [⟨str!"n", .one false, .uint32, []⟩, ⟨str!"line", .one false, .message, str!"x.Line"⟩]) (List.mem_of_getElem? (i := 1) rfl) _ (List.mem_of_getElem? (i := 1) rfl)).1 rfl
    revert this
    decide +kernel
  refine ⟨by cases lib <;> decide +kernel, hno, fun h => ?_⟩
  have := h.own.message (str!"Order", [⟨str!"n", .one false, .uint32, []⟩, ⟨str!"line", .one false, .message, str!"x.Line"⟩]) (List.mem_of_getElem? (i := 1) rfl) _
    (List.mem_of_getElem? (i := 1) rfl) rfl (by cases lib <;> decide +kernel)
  revert this
  decide +kernel

end

end Props
