import Verif.Text.RustRunLink
import Verif.Props.RustText
import Verif.Props.RustUntrusted
import Verif.Props.GoV1Runs

/-!
# Running the printed Rust programs

`RustText.program` is the program whose tokens the Rust generator prints (C94).  `RustRun.runEncode` and `RustRun.runDecode` run its
methods `encode` and `decode`, statement by statement (`RustRun.lean`); the methods of the cursor are those of the model of the
Rust library (C31 and following).  `RustRun.Runs W f` says that rustc accepts the names of the file, that no type is called
`Vec`, `HashMap` or `TryFromPrimitive`, that fields refer to types of the file, and have kinds that compile.
`RustRun.structOf f t vs` is the struct with the fields `vs`.
-/

namespace Props

open Utils Text Spec
open Gen (PKind Scalar V Field Schema)
open GoText (FileD FieldD)
open Package.Rust (World DependencyAnalysis Dependencies)
open Rust (Cursor Std)
open RustText (program camel)
open RustRun (Runs runEncode runDecode structOf asResult optRV)

/-- What rustc gives for file `f`: the generator returns (the dependency analysis does), and this is the program. -/
def Compiled (privacy : Bytes) (W : World) (f : FileD) (P : List RustAst.Item) : Prop :=
  ∃ depth d, DependencyAnalysis W depth f.erase = some d ∧ P = program privacy d f

/-- **C95 (encode).** `encode` of the printed program makes the calls of the model of the generated encoder (C63), in this order, and
returns `Ok` with the cursor. -/
theorem C95_encode (privacy : Bytes) (W : World) (f : FileD) (h : Runs W f) (P : List RustAst.Item) (hP : Compiled privacy W f P)
    (m : Nat) (t : Bytes × List FieldD) (ht : f.types[m]? = some t) (vs : List V) (hv : (V.msg vs).OfField f.schema (.one .message m false))
    (calls : List Spec.Item) (hc : RustGen.Encode f.schema m (.msg vs) = some calls) (std : Std) (depth : Nat) (hd : (V.msg vs).depth ≤ depth) (c : Cursor) :
    runEncode P std depth (camel t.1) (structOf f t vs) c = (.ok (.ok .cursor), (Rust.encodeItems calls c).2) := by
  obtain ⟨_, d, hd', rfl⟩ := hP
  have hof : Gen.OfFields f.schema (t.2.map (FieldD.toField f)) vs := by
    rw [V.OfField, GoRun.schema_fields ht] at hv; exact hv.2
  obtain ⟨c', hc'⟩ := RustRun.encodeItems_ok calls c
  have := RustRun.rec_encode (std := std) (RustRun.ctx_program (privacy := privacy) h hd') depth m t vs calls ht hof hc (by rw [V.depth] at hd; omega) [] c c' hc'
  rw [runEncode, this, hc']

/-- **C95 (decode).** `decode` of the printed program does, on every input and at every depth of the stack, what the model of the
generated decoder does: the same result, and the cursor at the same place. -/
theorem C95_decode (privacy : Bytes) (W : World) (f : FileD) (h : Runs W f) (P : List RustAst.Item) (hP : Compiled privacy W f P)
    (m : Nat) (t : Bytes × List FieldD) (ht : f.types[m]? = some t) (std : Std) (depth : Nat) (c : Cursor) :
    runDecode P std depth (camel t.1) c = (asResult (optRV (structOf f t)) (RustGen.decode std f.schema depth m c).1, (RustGen.decode std f.schema depth m c).2) := by
  obtain ⟨_, d, hd', rfl⟩ := hP
  have := RustRun.rec_decode (std := std) (RustRun.ctx_program (privacy := privacy) h hd') depth m t ht [] c
  rw [runDecode, this]
  have he : structOf f t = fun vs => .struct (camel t.1) (RustRun.rvs f.schema (RustRun.structName f) (f.schema.fields m) vs) := by
    funext vs; rw [structOf, GoRun.schema_fields ht]
  rw [he]

/-- **C95 (round trip).** The printed `encode` writes the message as the wire format says, and the printed `decode` gives the same
struct back, wherever the message stands in the input, and stops at its end. -/
theorem C95_roundtrip (privacy : Bytes) (W : World) (f : FileD) (h : Runs W f) (P : List RustAst.Item) (hP : Compiled privacy W f P)
    (m : Nat) (t : Bytes × List FieldD) (ht : f.types[m]? = some t) (vs : List V) (hv : (V.msg vs).OfField f.schema (.one .message m false))
    (hr : (V.msg vs).RustOk f.schema (.one .message m false)) (std : Std) (depth : Nat) (hd : (V.msg vs).depth ≤ depth) :
    let bytes := wireAll (f.schema.layout m (.msg vs))
    (∀ before, runEncode P std depth (camel t.1) (structOf f t vs) ⟨before, before.length⟩ = (.ok (.ok .cursor), ⟨before ++ bytes, (before ++ bytes).length⟩)) ∧
    ∀ before after, CleanTail after → runDecode P std depth (camel t.1) ⟨before ++ (bytes ++ after), before.length⟩ =
      (.ok (.ok (.some (structOf f t vs))), ⟨before ++ (bytes ++ after), before.length + bytes.length⟩) := by
  intro bytes
  obtain ⟨cs, g1, g2, g3, g4⟩ := rust_good std h.supported hv hr
  rw [RustGen.encode_layout h.supported m _ hv hr] at g1
  simp only [Option.some.injEq] at g1
  subst g1
  refine ⟨fun before => ?_, fun before after ha => ?_⟩
  · rw [C95_encode privacy W f h P hP m t ht vs hv _ (RustGen.encode_layout h.supported m _ hv hr) std depth hd, C31_message_appends_wire _ g3 g2]
  · rw [C95_decode privacy W f h P hP m t ht std depth, g4 depth hd before after ha]
    rfl

/-- **C95 (untrusted input).** Whatever the bytes, the printed `decode` does not panic and does nothing that rustc would not have
compiled (`bad`); the cursor does not leave the input; a struct that it returns is one that `encode` writes and `decode` reads back
(`C95_roundtrip`).  The stack it needs is at most proportional to the input. -/
theorem C95_untrusted (privacy : Bytes) (W : World) (f : FileD) (h : Runs W f) (hfin : f.schema.FiniteSize) (P : List RustAst.Item) (hP : Compiled privacy W f P)
    (m : Nat) (t : Bytes × List FieldD) (ht : f.types[m]? = some t) :
    (∀ std depth (c : Cursor), c.pos ≤ c.vec.length → ∃ c', c'.vec = c.vec ∧ c.pos ≤ c'.pos ∧ c'.pos ≤ c.vec.length ∧
      ((∃ e, runDecode P std depth (camel t.1) c = (.ok (.err e), c')) ∨ runDecode P std depth (camel t.1) c = (.ok (.ok .none), c') ∨
       runDecode P std depth (camel t.1) c = (.overflow, c') ∨
       ∃ vs, runDecode P std depth (camel t.1) c = (.ok (.ok (.some (structOf f t vs))), c') ∧
         (V.msg vs).OfField f.schema (.one .message m false) ∧ (V.msg vs).RustOk f.schema (.one .message m false))) ∧
    ∃ K, ∀ std depth (c : Cursor), c.pos ≤ c.vec.length → (c.vec.length - c.pos + 1) * K ≤ depth → (runDecode P std depth (camel t.1) c).1 ≠ .overflow := by
  constructor
  · intro std depth c hc
    obtain ⟨h1, h2, h3, h4, h5, h6⟩ := C65_safe std f.schema h.supported hfin depth m c hc
    refine ⟨_, h3, h4, h5, ?_⟩
    rw [C95_decode privacy W f h P hP m t ht std depth c]
    cases hr : (RustGen.decode std f.schema depth m c).1 with
    | ok o =>
      cases o with
      | none => exact .inr (.inl rfl)
      | some vs => exact .inr (.inr (.inr ⟨vs, rfl, h6 vs hr⟩))
    | err e => exact .inl ⟨_, rfl⟩
    | panic => exact absurd hr h1
    | bad => exact absurd hr h2
    | overflow => exact .inr (.inr (.inl rfl))
  · obtain ⟨K, hK⟩ := C65_stack f.schema h.supported hfin
    refine ⟨K, fun std depth c hc hd ho => hK std depth m c hc hd ?_⟩
    rw [C95_decode privacy W f h P hP m t ht std depth c] at ho
    cases hr : (RustGen.decode std f.schema depth m c).1 with
    | overflow => rfl
    | ok o => rw [hr] at ho; cases ho
    | err o => rw [hr] at ho; cases ho
    | bad => rw [hr] at ho; cases ho
    | panic => rw [hr] at ho; cases ho

/-- **C95 (text).** The same about texts: the generator prints one text (for a version and a path without newlines), and if no name is
a keyword of Rust the text is read as one program, which has these properties. -/
theorem C95_from_text (privacy : Bytes) (W : World) (version : Bytes) (f : FileD) (hw : RustText.FileWf f) (h : Runs W f) (hk : RustText.NoKeywords f)
    (hv : ∀ c ∈ version, c.toNat ≠ 0x0A) (hp : ∀ c ∈ f.path, c.toNat ≠ 0x0A) :
    ∃ text P, (∀ u, RustText.Generates privacy W version f u ↔ u = text) ∧ (∀ Q, RustParse.Reads text Q ↔ Q = P) ∧ Compiled privacy W f P := by
  obtain ⟨⟨depth, d, hd, _⟩, _⟩ := h.names
  obtain ⟨t, h1, h2, h3⟩ := (C94_tokens privacy W version f hw hv hp).1 depth d hd
  refine ⟨t, _, fun u => ⟨h2 u, fun hu => hu ▸ h1⟩, fun Q => ?_, depth, d, hd, rfl⟩
  rw [RustParse.Reads, h3, Option.bind_some, (RustText.parse_program hw privacy d).1 hk, Option.some.injEq]
  exact ⟨Eq.symm, Eq.symm⟩

open GoV2 (Runtime) in
/-- **C95 (languages).** The programs that the three generators print for the same file (Go v1, Go v2, Rust), each with its own
library: `encode` of the same message gives the same bytes, which are those of the wire format, and each of the three `decode`s turns
them back into the message.  The messages are those without nil messages, with declared enum numbers and valid UTF-8
(`RustOk`; for the others see C64). -/
theorem C95_languages (privacy : Bytes) (W : World) (f : FileD) (h : Runs W f) (h1 : @FileD.Plain .v1 f) (h2 : @FileD.Plain .v2 f) (hu : f.Unhidden)
    (hfin : ∀ m, ¬ f.schema.Endless m) (P : List RustAst.Item) (hP : Compiled privacy W f P) : ∃ R, ∀ m t, f.types[m]? = some t →
    ∀ vs, (V.msg vs).OfField f.schema (.one .message m false) → (V.msg vs).FitsV2 → (V.msg vs).RustOk f.schema (.one .message m false) →
    ∀ depth, 2 * ((V.msg vs).depth + R) + 1 ≤ depth → ∀ std,
    let bytes := wireAll (f.schema.layout m (.msg vs))
    runEncode P std depth (camel t.1) (structOf f t vs) ⟨[], 0⟩ = (.ok (.ok .cursor), ⟨bytes, bytes.length⟩) ∧
    (∃ calls, @Encodes .v1 f t depth vs calls ∧ ∀ rt : Runtime, ∃ b, GoV1.encodeItems rt GoV1.NewBuffer calls = .ok b ∧ b.Bytes = bytes) ∧
    (∃ calls, @Encodes .v2 f t depth vs calls ∧ ∀ (rt : Runtime) b0, GoV2.Fresh b0 → ∃ b, GoV2.encodeItems rt b0 calls = .ok b ∧ b.Bytes = .ok bytes) ∧
    ∀ tail, CleanTail tail →
      runDecode P std depth (camel t.1) ⟨bytes ++ tail, 0⟩ = (.ok (.ok (.some (structOf f t vs))), ⟨bytes ++ tail, bytes.length⟩) ∧
      ∀ olds, (V.msg olds).OfField f.schema (.one .message m false) → @Decodes .v1 f t depth olds (bytes ++ tail) vs ∧ @Decodes .v2 f t depth olds (bytes ++ tail) vs := by
  obtain ⟨R, hR⟩ := C62_programs_partial f h1 h2 hu hfin
  refine ⟨R, fun m t ht vs hv hf hr depth hd std => ?_⟩
  intro bytes
  have hS := @FileD.Plain.supported .v1 f h1
  have e1 : @Encodes .v1 f t depth vs (f.schema.layout m (.msg vs)) := @C86_encode .v1 f h1 m t ht _ hv depth (by omega) _ _
  have e2 : @Encodes .v2 f t depth vs (f.schema.layout m (.msg vs)) := @C86_encode .v2 f h2 m t ht _ hv depth (by omega) _ _
  have hfit := Gen.layout_fitsV2 f.schema hf m
  have hst : Gen.settledAll vs = vs := by simpa [V.settled] using V.RustOk.settled hv hr
  obtain ⟨r1, r2⟩ := C95_roundtrip privacy W f h P hP m t ht vs hv hr std depth (by omega)
  refine ⟨by simpa using r1 [], ⟨_, e1, fun rt => encoded_v1 rt fun i hi => (hfit i hi).fits⟩, ⟨_, e2, fun rt b0 hb => encoded_v2 rt hb hfit⟩, fun tail htl => ⟨by simpa using r2 [] tail htl, fun olds ho => ?_⟩⟩
  obtain ⟨calls1, calls2, g1, g2, g3⟩ := hR m t ht vs hv hf (V.RustOk.noNil hv hr) depth hd
  unfold Encodes at g1 e1
  rw [e1] at g1
  cases g1
  obtain ⟨b1, b2, k1, k2, k3, k4⟩ := g3 ⟨fun _ _ => 0⟩ ⟨fun _ _ => 0⟩ GoV2.NewBuffer (.inl rfl)
  obtain ⟨b, k5, k6⟩ := encoded_v1 ⟨fun _ _ => 0⟩ fun i hi => (hfit i hi).fits
  rw [k1] at k5
  cases k5
  rw [k6, hst] at k4
  refine k4 olds ho tail ?_
  rcases htl with rfl | ⟨a, b, u, rfl, ha, _⟩
  · simp
  · simpa using ha

/-! ## A file that meets the hypotheses -/

theorem shopFile_analysis : DependencyAnalysis ordersWorld 5 shopFile.erase = some ⟨true, true⟩ := by
  have hl : ordersWorld str!"shop.v1.Order.Line" = [⟨str!"sku", .one, .scalar⟩, ⟨str!"count", .one, .scalar⟩] := by decide +kernel
  simp [DependencyAnalysis, Package.Rust.traverseMessages, shopFile, orders, FileD.erase, GoText.MsgD.erase, FieldD.erase, Package.MsgD.fields,
    Package.Rust.traverseFields, hl]

theorem shopFile_runs : Runs ordersWorld shopFile where
  names := ⟨⟨5, _, shopFile_analysis, by decide +kernel, by decide +kernel⟩, by decide +kernel⟩
  reserved := by decide +kernel
  closed := by unfold FileD.Closed; decide +kernel
  supported := by
    rw [shopFile_schema]
    intro fs hfs
    simp only [List.mem_cons, List.not_mem_nil, or_false] at hfs
    rcases hfs with rfl | rfl <;> simp [Field.RustSupported]

theorem shopFile_compiled : Compiled str!"public" ordersWorld shopFile (program str!"public" ⟨true, true⟩ shopFile) := ⟨5, _, shopFile_analysis, rfl⟩

theorem order2_rust : (V.msg order2).RustOk shopFile.schema (.one .message 1 false) := by
  rw [shopFile_schema]
  simp [order2, V.RustOk, Gen.RustOkF, Gen.RustOkE, Schema.fields, Scalar.RustOk]
  decide +kernel

/-- The printed program, run on an order with a line, a map and a main line: these bytes, and the same order back. -/
example (std : Std) (t : Bytes × List FieldD) (ht : shopFile.types[1]? = some t) : let P := program str!"public" ⟨true, true⟩ shopFile
    let bytes := wireAll (shopFile.schema.layout 1 (.msg order2))
    runEncode P std 4 (camel t.1) (structOf shopFile t order2) ⟨[], 0⟩ = (.ok (.ok .cursor), ⟨bytes, bytes.length⟩) ∧
    runDecode P std 4 (camel t.1) ⟨bytes, 0⟩ = (.ok (.ok (.some (structOf shopFile t order2))), ⟨bytes, bytes.length⟩) := by
  obtain ⟨h1, h2⟩ := C95_roundtrip str!"public" ordersWorld shopFile shopFile_runs _ shopFile_compiled 1 t ht order2 order2_typed order2_rust std 4 (by decide)
  exact ⟨by simpa using h1 [], by simpa using h2 [] [] (.inl rfl)⟩

/-- Some bytes that are no order: an error. -/
example (std : Std) : ∃ e c, runDecode (program str!"public" ⟨true, true⟩ shopFile) std 4 go!"ShopV1Order" ⟨[1, 2, 3], 0⟩ = (.ok (.err e), c) := by
  have := C95_decode str!"public" ordersWorld shopFile shopFile_runs _ shopFile_compiled 1 (str!"shop.v1.Order", _) (by rfl) std 4 ⟨[1, 2, 3], 0⟩
  rw [show camel str!"shop.v1.Order" = go!"ShopV1Order" by decide +kernel] at this
  rw [this, shopFile_schema]
  exact ⟨_, _, rfl⟩

/-- The hypotheses of `C95_untrusted`, `C95_from_text` and `C95_languages`. -/
example : shopFile.schema.FiniteSize ∧ RustText.FileWf shopFile ∧ RustText.NoKeywords shopFile ∧ @FileD.Plain .v1 shopFile ∧ @FileD.Plain .v2 shopFile ∧ shopFile.Unhidden ∧
    (∀ m, ¬ shopFile.schema.Endless m) ∧ (V.msg order2).FitsV2 :=
  ⟨shopFile_finite, .of_go (@shopFile_wf), ⟨by decide +kernel, by decide +kernel, by decide +kernel, by decide +kernel⟩, shopFile_plain, shopFile_plain, shopFile_unhidden, shopFile_chains,
    by simp [order2, V.FitsV2, Gen.FitsV2All, Scalar.FitsV2]⟩

end Props
