import Verif.Text.GoRunEncodeMsg
import Verif.Props.GoText

/-!
# Running the generated Go program

`GoRun.lean` is an interpreter for Go programs; `program f` is the program that the generator prints for file `f` (C85).
-/

namespace Props

open Utils Text GoAst GoText GoRun Gen
open Package (EnumD)

variable {lib : Lib}

/-- **C86 (Encode).** For every file that the generated code supports, every message type of it and every value of that type (nil or
not), running the printed method `Encode` with enough call stack ends without fault, does not change the value, and the encoder calls
it makes are exactly the specified layout of the value. -/
theorem C86_encode (f : FileD) (h : f.Plain) (m : Nat) (t : Bytes × List FieldD) (ht : f.types[m]? = some t) (x : V)
    (hx : x.OfField f.schema (.one .message m false)) (depth : Nat) (hd : 2 * x.depth ≤ depth) (rd : GoGen.Codec) (inp : Bytes) :
    callMethod (program f) rd depth (camel t.1) go!"Encode" (.data x) [.buffer] inp = .ok [] (some (.data x)) (f.schema.layout m x) inp := by
  rw [callMethod, find_encode h (List.mem_of_getElem? ht)]
  simp only []
  rw [run_encode h rd x.depth depth hd m t x ht hx (Nat.le_refl _)]
  simp

/-- **C86 (from the text).** The same about the text: given a version text and a path without newlines the generator prints one
text, whose tokens are those of a program with that behaviour. -/
theorem C86_text (version : Bytes) (f : FileD) (h : f.Plain) (hv : ∀ c ∈ version, c.toNat ≠ 0x0A) (hp : ∀ c ∈ f.path, c.toNat ≠ 0x0A) :
    ∃ txt P, Generates version f txt ∧ (∀ u, Generates version f u → u = txt) ∧ GoParse.Reads txt P ∧
      ∀ m t, f.types[m]? = some t → ∀ x : V, x.OfField f.schema (.one .message m false) → ∀ depth, 2 * x.depth ≤ depth → ∀ rd inp,
        callMethod P rd depth (camel t.1) go!"Encode" (.data x) [.buffer] inp = .ok [] (some (.data x)) (f.schema.layout m x) inp := by
  obtain ⟨txt, h1, h2, h3⟩ := C85_reads version f h.wf hv hp
  exact ⟨txt, program f, h1, h2, (h3 _).2 rfl, fun m t ht x hx d hd rd inp => C86_encode f h m t ht x hx d hd rd inp⟩

/-! ## A file that meets the hypotheses -/

/-- `orders` without the repeated field of bytes. -/
def shopFile : FileD :=
  { orders with messages := [.mk str!"Order" false
      [⟨str!"id", .one false, .string, []⟩, ⟨str!"color", .one false, .enum, str!"shop.v1.Color"⟩,
       ⟨str!"lines", .many, .message, str!"shop.v1.Order.Line"⟩, ⟨str!"by_sku", .map .string, .message, str!"shop.v1.Order.Line"⟩,
       ⟨str!"main_line", .one false, .message, str!"shop.v1.Order.Line"⟩]
      [⟨str!"State", [str!"OPEN"]⟩]
      [.mk str!"Line" false [⟨str!"sku", .one false, .string, []⟩, ⟨str!"count", .one false, .uint32, []⟩] [] [],
       .mk str!"BySkuEntry" true [⟨str!"key", .one false, .string, []⟩, ⟨str!"value", .one false, .message, str!"shop.v1.Order.Line"⟩] [] []]] }

theorem shopFile_wf : shopFile.Wf := by
  obtain ⟨h1, h2, h3, h4, h5⟩ := orders_wf
  refine ⟨h1, h2, h3, h4, ?_⟩
  intro m hm
  have ho := h5 _ (List.mem_cons_self ..)
  cases ho with
  | mk a b c d =>
    simp only [shopFile, List.mem_singleton] at hm
    subst hm
    refine .mk a (fun g hg => b g ?_) c d
    simp only [List.mem_cons, List.not_mem_nil, or_false] at hg ⊢
    rcases hg with hg | hg | hg | hg | hg <;> simp [hg]

theorem shopFile_schema : shopFile.schema = ⟨[[.one .string 2 false, .one .uint32 2 false],
    [.one .string 2 false, .one .enum 0 false, .many .message 0, .map .string .message 0, .one .message 0 false]], [2, 1]⟩ := by decide +kernel

theorem shopFile_plain : shopFile.Plain where
  wf := shopFile_wf
  closed := by unfold FileD.Closed; decide +kernel
  distinct := by unfold Distinct; cases lib <;> decide +kernel
  fields := by decide +kernel
  supported := by
    rw [shopFile_schema]
    intro fs hfs
    simp only [List.mem_cons, List.not_mem_nil, or_false] at hfs
    rcases hfs with rfl | rfl <;> simp [Field.GoSupported, Field.IsMap]

/-- A value with a nested message, a slice with a nil element and a map. -/
def order : V :=
  let line : V := .msg [.scalar (.string [65, 66]), .scalar (.uint32 7)]
  .msg [.scalar (.string [65]), .scalar (.enum 1), .slice [line, .nil], .map [.string [90]] [line], line]

example : callMethod (program shopFile) ver.codec 4 go!"ShopV1Order" go!"Encode" (.data order) [.buffer] [] =
    .ok [] (some (.data order)) [.string [65], .uint32 1, .slice 2 Spec.kAny, .string [65, 66], .uint32 7, .nil, .map 1 Spec.kString Spec.kAny, .string [90],
      .string [65, 66], .uint32 7, .string [65, 66], .uint32 7] [] := by
  have hx : order.OfField shopFile.schema (.one .message 1 false) := by
    rw [shopFile_schema]
    simp [order, V.OfField, OfFields, OfElems, Schema.fields, Scalar.OfKind]
  have := C86_encode (lib := lib) shopFile shopFile_plain 1 (str!"shop.v1.Order", _) (by rfl) order hx 4 (by decide) ver.codec []
  rw [show camel str!"shop.v1.Order" = go!"ShopV1Order" by decide +kernel] at this
  rw [this, shopFile_schema]
  rfl

end Props
